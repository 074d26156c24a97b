import Verif.Spec.Walk
/-
The walk over a table that changes.
-/
namespace Swoll.Lemmas.Walk
open Swoll Swoll.Probe Swoll.Walk Swoll.Spec.Walk

/-- Entries are in their buckets, none twice. -/
structure WF (hash : MKey → Nat) (t : Table) : Prop where
  fits : ∀ k, hash k < t.length
  place : ∀ (i : Nat) (b : Bucket), t[i]? = some b → ∀ x ∈ b, hash x.1 = i
  once : ∀ (i : Nat) (b : Bucket), t[i]? = some b → (b.map (·.1)).Nodup

theorem wf_nil (hash : MKey → Nat) (n : Nat) (h : ∀ k, hash k < n) : WF hash (List.replicate n []) := by
  refine ⟨by simpa using h, ?_, ?_⟩ <;> intro i b hb <;> rw [List.getElem?_replicate] at hb <;>
    by_cases hi : i < n <;> simp [hi] at hb <;> subst hb <;> simp

theorem bucket_get {hash : MKey → Nat} {t : Table} (h : WF hash t) (k : MKey) :
    t[hash k]? = some (bucketOf hash t k) := by
  unfold bucketOf
  rw [List.getElem?_eq_getElem (h.fits k)]
  rfl

theorem mem_keys {hash : MKey → Nat} {t : Table} (h : WF hash t) (k : MKey) :
    k ∈ keys t ↔ k ∈ (bucketOf hash t k).map (·.1) := by
  unfold keys
  constructor
  · intro hk
    obtain ⟨x, hx, rfl⟩ := List.mem_map.mp hk
    obtain ⟨b, hb, hxb⟩ := List.mem_flatten.mp hx
    obtain ⟨i, hi⟩ := List.getElem?_of_mem hb
    have := h.place i b hi x hxb
    subst this
    rw [bucket_get h] at hi
    cases hi
    exact List.mem_map_of_mem hxb
  · intro hk
    obtain ⟨x, hx, hxk⟩ := List.mem_map.mp hk
    refine List.mem_map.mpr ⟨x, List.mem_flatten.mpr ⟨_, List.mem_of_getElem? (bucket_get h k), hx⟩, hxk⟩

theorem nodup_filter {α : Type} (p : α → Bool) : ∀ {l : List α}, l.Nodup → (l.filter p).Nodup := by
  intro l h
  exact List.Pairwise.filter p h

theorem wf_store {hash : MKey → Nat} {t : Table} (h : WF hash t) (e : MKey × MVal) : WF hash (store hash t e) := by
  refine ⟨?_, ?_, ?_⟩
  · intro k; unfold store; rw [List.length_set]; exact h.fits k
  all_goals
    intro i b hb
    unfold store at hb
    rw [List.getElem?_set] at hb
    by_cases he : hash e.1 = i
    · subst he
      rw [if_pos rfl, if_pos (h.fits _)] at hb
      cases hb
      first
      | intro x hx
        rcases List.mem_cons.mp hx with rfl | hx
        · rfl
        · exact h.place _ _ (bucket_get h _) x (List.mem_filter.mp hx).1
      | rw [List.map_cons, List.nodup_cons]
        constructor
        · intro hm
          obtain ⟨x, hx, hxe⟩ := List.mem_map.mp hm
          have := (List.mem_filter.mp hx).2
          simp [hxe] at this
        · have := h.once _ _ (bucket_get h e.1)
          exact List.Nodup.sublist (List.Sublist.map _ List.filter_sublist) this
    · rw [if_neg he] at hb
      first
      | exact h.place i b hb
      | exact h.once i b hb

theorem bucket_store_self {hash : MKey → Nat} {t : Table} (h : WF hash t) (e : MKey × MVal) (k : MKey)
    (hk : hash k = hash e.1) :
    bucketOf hash (store hash t e) k = e :: (bucketOf hash t e.1).filter fun x => x.1 ≠ e.1 := by
  have h1 : (store hash t e)[hash k]? = some (e :: (bucketOf hash t e.1).filter fun x => x.1 ≠ e.1) := by
    unfold store
    rw [List.getElem?_set, hk, if_pos rfl, if_pos (h.fits _)]
  rw [bucket_get (wf_store h e)] at h1
  exact Option.some.inj h1

theorem bucket_store_other {hash : MKey → Nat} {t : Table} (h : WF hash t) (e : MKey × MVal) (k : MKey)
    (hk : hash k ≠ hash e.1) : bucketOf hash (store hash t e) k = bucketOf hash t k := by
  have h1 : (store hash t e)[hash k]? = some (bucketOf hash t k) := by
    unfold store
    rw [List.getElem?_set, if_neg (fun x => hk x.symm)]
    exact bucket_get h k
  rw [bucket_get (wf_store h e)] at h1
  exact Option.some.inj h1

theorem keys_store {hash : MKey → Nat} {t : Table} (h : WF hash t) (e : MKey × MVal) (k : MKey) :
    k ∈ keys (store hash t e) ↔ k = e.1 ∨ k ∈ keys t := by
  rw [mem_keys (wf_store h e), mem_keys h]
  by_cases hk : hash k = hash e.1
  · rw [bucket_store_self h e k hk, List.map_cons, List.mem_cons]
    have hb : bucketOf hash t k = bucketOf hash t e.1 := by unfold bucketOf; rw [hk]
    rw [hb]
    constructor
    · rintro (h1 | h1)
      · exact .inl h1
      · obtain ⟨x, hx, hxk⟩ := List.mem_map.mp h1
        exact .inr (List.mem_map.mpr ⟨x, (List.mem_filter.mp hx).1, hxk⟩)
    · rintro (h1 | h1)
      · exact .inl h1
      · by_cases he : k = e.1
        · exact .inl he
        · obtain ⟨x, hx, hxk⟩ := List.mem_map.mp h1
          exact .inr (List.mem_map.mpr ⟨x, List.mem_filter.mpr ⟨hx, by simp [hxk, he]⟩, hxk⟩)
  · rw [bucket_store_other h e k hk]
    constructor
    · exact .inr
    · rintro (rfl | h1)
      · exact absurd rfl hk
      · exact h1

/-- The entries behind a key in its bucket. -/
def behind (hash : MKey → Nat) (t : Table) (c : MKey) : List MKey :=
  (((bucketOf hash t c).dropWhile fun x => x.1 ≠ c).tail).map (·.1)

/-- What is still ahead of a walk that is at `c`. -/
def Ahead (hash : MKey → Nat) (t : Table) (c k : MKey) : Prop :=
  k ∈ keys t ∧ (c ∈ keys t → hash c < hash k ∨ k ∈ behind hash t c)

theorem behind_keys {hash : MKey → Nat} {t : Table} (h : WF hash t) {c k : MKey} (hk : k ∈ behind hash t c) :
    k ∈ keys t ∧ hash k = hash c := by
  unfold behind at hk
  obtain ⟨x, hx, rfl⟩ := List.mem_map.mp hk
  have h1 : x ∈ bucketOf hash t c :=
    (List.dropWhile_sublist _).subset (List.mem_of_mem_tail hx)
  have h2 := h.place _ _ (bucket_get h c) x h1
  refine ⟨?_, h2⟩
  rw [mem_keys h]
  have : bucketOf hash t x.1 = bucketOf hash t c := by unfold bucketOf; rw [h2]
  rw [this]
  exact List.mem_map_of_mem h1

/-- The bucket of an entry that shares it with none. -/
theorem alone {hash : MKey → Nat} {t : Table} (h : WF hash t) {c : MKey} (hc : c ∈ keys t)
    (ha : ∀ k ∈ keys t, k ≠ c → hash k ≠ hash c) : ∃ v, bucketOf hash t c = [(c, v)] := by
  have hall : ∀ x ∈ bucketOf hash t c, x.1 = c := by
    intro x hx
    have h2 := h.place _ _ (bucket_get h c) x hx
    by_cases e : x.1 = c
    · exact e
    · refine absurd h2 (ha x.1 ?_ e)
      rw [mem_keys h]
      have : bucketOf hash t x.1 = bucketOf hash t c := by unfold bucketOf; rw [h2]
      rw [this]
      exact List.mem_map_of_mem hx
  have hn := h.once _ _ (bucket_get h c)
  rw [mem_keys h] at hc
  match hb : bucketOf hash t c with
  | [] => rw [hb] at hc; simp at hc
  | [(a, v)] =>
    have := hall (a, v) (by rw [hb]; simp)
    exact ⟨v, by rw [← this]⟩
  | x :: y :: l =>
    have h1 := hall x (by rw [hb]; simp)
    have h2 := hall y (by rw [hb]; simp)
    rw [hb] at hn
    simp [h1, h2] at hn

theorem behind_store {hash : MKey → Nat} {t : Table} (h : WF hash t) (e : MKey × MVal) {c : MKey} (hc : c ∈ keys t)
    (ha : ∀ k ∈ keys t, k ≠ e.1 → hash k ≠ hash e.1) : behind hash (store hash t e) c = behind hash t c := by
  unfold behind
  by_cases hk : hash c = hash e.1
  · have hce : c = e.1 := by
      by_cases x : c = e.1
      · exact x
      · exact absurd hk (ha c hc x)
    subst hce
    obtain ⟨v, hv⟩ := alone h hc ha
    rw [bucket_store_self h e e.1 rfl, hv]
    simp
  · rw [bucket_store_other h e c hk]

/-- Storing keeps what is ahead, and adds at most what was not there. -/
theorem ahead_store {hash : MKey → Nat} {t : Table} (h : WF hash t) (e : MKey × MVal) {c : MKey}
    (hc : c ∈ keys t ∨ c ≠ e.1) (ha : ∀ k ∈ keys t, k ≠ e.1 → hash k ≠ hash e.1) (k : MKey) :
    (Ahead hash t c k → Ahead hash (store hash t e) c k) ∧
    (Ahead hash (store hash t e) c k → k ∈ keys t → Ahead hash t c k) := by
  have hcc : c ∈ keys (store hash t e) → c ∈ keys t := by
    intro x
    rcases (keys_store h e c).mp x with x | x
    · rcases hc with hc | hc
      · exact hc
      · exact absurd x hc
    · exact x
  constructor
  · rintro ⟨h1, h2⟩
    refine ⟨(keys_store h e k).mpr (.inr h1), ?_⟩
    intro hx
    have hx' := hcc hx
    rw [behind_store h e hx' ha]
    exact h2 hx'
  · rintro ⟨-, h2⟩ h1
    refine ⟨h1, ?_⟩
    intro hx
    have := h2 ((keys_store h e c).mpr (.inr hx))
    rw [behind_store h e hx ha] at this
    exact this

/-- The first entry from a bucket on. -/
theorem first_from : ∀ (t : Table) (x : MKey × MVal), t.flatten.head? = some x →
    ∃ (j : Nat) (l : Bucket), t[j]? = some (x :: l) ∧ ∀ i, i < j → t[i]? = some [] := by
  intro t
  induction t with
  | nil => intro x h; simp at h
  | cons b t ih =>
    intro x h
    cases b with
    | nil =>
      simp at h
      obtain ⟨j, l, h1, h2⟩ := ih x (by simpa using h)
      refine ⟨j + 1, l, by simpa using h1, ?_⟩
      intro i hi
      cases i with
      | zero => rfl
      | succ n => simpa using h2 n (by omega)
    | cons y l =>
      simp at h
      subst h
      exact ⟨0, l, rfl, fun i hi => absurd hi (by omega)⟩

/-- The same from bucket `d` on, in terms of keys: nothing lies between. -/
theorem first_drop {hash : MKey → Nat} {t : Table} (h : WF hash t) (d : Nat) (n : MKey)
    (hn : (t.drop d).flatten.head?.map (·.1) = some n) :
    n ∈ keys t ∧ d ≤ hash n ∧ (∀ k ∈ keys t, d ≤ hash k → hash n ≤ hash k) ∧
    ∀ k, (k ∈ keys t ∧ hash k = hash n ∧ k ≠ n) ↔ k ∈ behind hash t n := by
  cases hx : (t.drop d).flatten.head? with
  | none => rw [hx] at hn; cases hn
  | some x =>
    rw [hx] at hn
    simp only [Option.map_some, Option.some.injEq] at hn
    subst hn
    obtain ⟨j, l, h1, h2⟩ := first_from _ _ hx
    rw [List.getElem?_drop] at h1
    have hp : hash x.1 = d + j := h.place _ _ h1 x List.mem_cons_self
    have hb : bucketOf hash t x.1 = x :: l := by
      have := bucket_get h x.1
      rw [hp, h1] at this
      exact (Option.some.inj this).symm
    have hkey : x.1 ∈ keys t := by rw [mem_keys h, hb]; simp
    refine ⟨hkey, by omega, ?_, ?_⟩
    · intro k hk hd
      rw [hp]
      by_cases hlt : hash k < d + j
      · exfalso
        have h3 := h2 (hash k - d) (by omega)
        rw [List.getElem?_drop] at h3
        have h4 : d + (hash k - d) = hash k := by omega
        rw [h4, bucket_get h] at h3
        rw [mem_keys h, Option.some.inj h3] at hk
        simp at hk
      · omega
    · intro k
      have hbe : behind hash t x.1 = l.map (·.1) := by
        unfold behind
        rw [hb]
        simp
      rw [hbe]
      have hno := h.once _ _ h1
      rw [List.map_cons, List.nodup_cons] at hno
      constructor
      · rintro ⟨h3, h4, h5⟩
        rw [mem_keys h] at h3
        have : bucketOf hash t k = x :: l := by rw [← hb]; unfold bucketOf; rw [h4]
        rw [this, List.map_cons, List.mem_cons] at h3
        rcases h3 with h3 | h3
        · exact absurd h3 h5
        · exact h3
      · intro h3
        obtain ⟨y, hy, rfl⟩ := List.mem_map.mp h3
        have hpy : hash y.1 = d + j := h.place _ _ h1 y (List.mem_cons_of_mem _ hy)
        refine ⟨?_, by omega, ?_⟩
        · rw [mem_keys h]
          have : bucketOf hash t y.1 = x :: l := by rw [← hb]; unfold bucketOf; rw [hpy, hp]
          rw [this]
          exact List.mem_map_of_mem (List.mem_cons_of_mem _ hy)
        · intro e
          rw [e] at h3
          exact hno.1 h3

theorem drop_some {c : MKey} : ∀ (b : Bucket), c ∈ b.map (·.1) →
    ∃ pre x post, b = pre ++ x :: post ∧ x.1 = c ∧ (b.dropWhile fun y => y.1 ≠ c) = x :: post := by
  intro b
  induction b with
  | nil => intro h; simp at h
  | cons y b ih =>
    intro h
    by_cases e : y.1 = c
    · exact ⟨[], y, b, rfl, e, by simp [e]⟩
    · rw [List.map_cons, List.mem_cons] at h
      rcases h with h | h
      · exact absurd h.symm e
      · obtain ⟨pre, x, post, h1, h2, h3⟩ := ih h
        refine ⟨y :: pre, x, post, by rw [h1]; rfl, h2, ?_⟩
        rw [List.dropWhile_cons]
        simp only [ne_eq, e, not_false_eq_true, decide_true, if_true]
        exact h3

theorem drop_none {c : MKey} (b : Bucket) (h : c ∉ b.map (·.1)) : (b.dropWhile fun y => y.1 ≠ c) = [] := by
  induction b with
  | nil => rfl
  | cons y b ih =>
    rw [List.map_cons, List.mem_cons, not_or] at h
    rw [List.dropWhile_cons]
    have : y.1 ≠ c := fun e => h.1 e.symm
    simp only [ne_eq, this, not_false_eq_true, decide_true, if_true]
    exact ih h.2

/-- There is no next key: nothing is ahead. -/
theorem next_none {hash : MKey → Nat} {t : Table} (h : WF hash t) {c : MKey} (hn : nextKey hash t c = none) (k : MKey) :
    ¬ Ahead hash t c k := by
  rintro ⟨hk, ha⟩
  have hin : ∀ d, (t.drop d).flatten.head?.map (·.1) = none → d ≤ hash k → False := by
    intro d hd hle
    have hnil : (t.drop d).flatten = [] := by
      cases hx : (t.drop d).flatten with
      | nil => rfl
      | cons a l => rw [hx] at hd; cases hd
    rw [mem_keys h] at hk
    obtain ⟨x, hx, hxk⟩ := List.mem_map.mp hk
    have hg := bucket_get h k
    have : (t.drop d)[hash k - d]? = some (bucketOf hash t k) := by
      rw [List.getElem?_drop]
      have : d + (hash k - d) = hash k := by omega
      rw [this]; exact hg
    have : x ∈ (t.drop d).flatten := List.mem_flatten.mpr ⟨_, List.mem_of_getElem? this, hx⟩
    rw [hnil] at this
    cases this
  by_cases hc : c ∈ keys t
  · have hc' := hc
    rw [mem_keys h] at hc'
    obtain ⟨pre, x, post, h1, h2, h3⟩ := drop_some _ hc'
    unfold nextKey at hn
    rw [h3] at hn
    have hb : behind hash t c = post.map (·.1) := by unfold behind; rw [h3]; rfl
    cases post with
    | nil =>
      dsimp only at hn
      rcases ha hc with ha | ha
      · exact hin _ hn (by omega)
      · rw [hb] at ha; cases ha
    | cons y l => cases hn
  · have hc' := hc
    rw [mem_keys h] at hc'
    unfold nextKey at hn
    rw [drop_none _ hc'] at hn
    exact hin 0 hn (by omega)

/-- The next key is ahead, and what is ahead of it is what was ahead but it. -/
theorem next_some {hash : MKey → Nat} {t : Table} (h : WF hash t) {c n : MKey} (hn : nextKey hash t c = some n) :
    Ahead hash t c n ∧ ∀ k, Ahead hash t n k ↔ Ahead hash t c k ∧ k ≠ n := by
  have hfrom : ∀ d, (t.drop d).flatten.head?.map (·.1) = some n →
      (∀ k, Ahead hash t c k ↔ k ∈ keys t ∧ d ≤ hash k) →
      Ahead hash t c n ∧ ∀ k, Ahead hash t n k ↔ Ahead hash t c k ∧ k ≠ n := by
    intro d hd ha
    obtain ⟨h1, h2, h3, h4⟩ := first_drop h d n hd
    refine ⟨(ha n).mpr ⟨h1, h2⟩, ?_⟩
    intro k
    rw [ha k]
    constructor
    · rintro ⟨hk, hx⟩
      rcases hx h1 with hx | hx
      · refine ⟨⟨hk, by omega⟩, ?_⟩
        rintro rfl
        omega
      · have := (h4 k).mpr hx
        exact ⟨⟨hk, by omega⟩, this.2.2⟩
    · rintro ⟨⟨hk, hd⟩, hne⟩
      refine ⟨hk, fun _ => ?_⟩
      have := h3 k hk hd
      by_cases e : hash k = hash n
      · exact .inr ((h4 k).mp ⟨hk, e, hne⟩)
      · exact .inl (by omega)
  by_cases hc : c ∈ keys t
  · have hc' := hc
    rw [mem_keys h] at hc'
    obtain ⟨pre, x, post, h1, h2, h3⟩ := drop_some _ hc'
    have hb : behind hash t c = post.map (·.1) := by unfold behind; rw [h3]; rfl
    unfold nextKey at hn
    rw [h3] at hn
    cases post with
    | nil =>
      dsimp only at hn
      refine hfrom _ hn ?_
      intro k
      unfold Ahead
      rw [hb]
      constructor
      · rintro ⟨hk, hx⟩
        rcases hx hc with hx | hx
        · exact ⟨hk, by omega⟩
        · cases hx
      · rintro ⟨hk, hx⟩
        exact ⟨hk, fun _ => .inl (by omega)⟩
    | cons y l =>
      dsimp only at hn
      have hy : y.1 = n := Option.some.inj hn
      have hyb : y ∈ bucketOf hash t c := by rw [h1]; simp
      have hyh := h.place _ _ (bucket_get h c) y hyb
      have hbn : bucketOf hash t n = bucketOf hash t c := by unfold bucketOf; rw [← hy, hyh]
      have hno := h.once _ _ (bucket_get h c)
      have hnk : n ∈ keys t := by
        rw [mem_keys h, hbn, ← hy]
        exact List.mem_map_of_mem hyb
      have hbeh : behind hash t n = l.map (·.1) := by
        unfold behind
        rw [hbn, h1]
        rw [h1, List.map_append, List.nodup_append] at hno
        have hpre : ∀ z ∈ pre ++ [x], z.1 ≠ n := by
          intro z hz
          rw [List.mem_append] at hz
          rcases hz with hz | hz
          · intro e
            exact hno.2.2 z.1 (List.mem_map_of_mem hz) y.1 (by simp) (by rw [e, hy])
          · simp at hz
            subst hz
            intro e
            have := hno.2.1
            simp only [List.map_cons, List.nodup_cons, List.mem_cons, not_or] at this
            exact this.1.1 (by rw [e, hy])
        have hsplit : pre ++ x :: y :: l = (pre ++ [x]) ++ y :: l := by simp
        rw [hsplit, List.dropWhile_append_of_pos (by
          intro z hz
          simpa using hpre z hz)]
        simp [hy]
      have hnl : n ∉ l.map (·.1) := by
        rw [h1, List.map_append, List.nodup_append] at hno
        have := hno.2.1
        simp only [List.map_cons, List.nodup_cons] at this
        rw [← hy]
        exact this.2.1
      have hhash : hash n = hash c := by rw [← hy]; exact hyh
      refine ⟨⟨hnk, fun _ => .inr (by rw [hb]; simp [hy])⟩, ?_⟩
      intro k
      unfold Ahead
      rw [hb, hbeh]
      simp only [List.map_cons, List.mem_cons]
      constructor
      · rintro ⟨hk, hx⟩
        rcases hx hnk with hx' | hx'
        · refine ⟨⟨hk, fun _ => .inl (by omega)⟩, ?_⟩
          rintro rfl
          omega
        · refine ⟨⟨hk, fun _ => .inr (.inr hx')⟩, ?_⟩
          rintro rfl
          exact hnl hx'
      · rintro ⟨⟨hk, hx⟩, hne⟩
        refine ⟨hk, fun _ => ?_⟩
        rcases hx hc with hx | hx | hx
        · exact .inl (by omega)
        · exact absurd (hx.trans hy) hne
        · exact .inr hx
  · have hc' := hc
    rw [mem_keys h] at hc'
    unfold nextKey at hn
    rw [drop_none _ hc'] at hn
    refine hfrom 0 hn ?_
    intro k
    unfold Ahead
    exact ⟨fun x => ⟨x.1, by omega⟩, fun x => ⟨x.1, fun y => absurd y hc⟩⟩

/-- Storing several. -/
theorem stores {hash : MKey → Nat} {ks : List MKey} : ∀ (es : List (MKey × MVal)) (t : Table) (c : MKey), WF hash t →
    (∀ e ∈ es, e.1 ∈ ks ∧ ∀ k ∈ ks, k ≠ e.1 → hash k ≠ hash e.1) → (∀ k ∈ keys t, k ∈ ks) →
    (c ∈ keys t ∨ ∀ e ∈ es, c ≠ e.1) →
    WF hash (es.foldl (store hash) t) ∧ (∀ k ∈ keys (es.foldl (store hash) t), k ∈ ks) ∧
    (∀ k ∈ keys t, k ∈ keys (es.foldl (store hash) t)) ∧
    (∀ k, Ahead hash t c k → Ahead hash (es.foldl (store hash) t) c k) ∧
    (∀ k, Ahead hash (es.foldl (store hash) t) c k → k ∈ keys t → Ahead hash t c k) := by
  intro es
  induction es with
  | nil => intro t c h _ hk _; exact ⟨h, hk, fun _ x => x, fun _ x => x, fun _ x _ => x⟩
  | cons e es ih =>
    intro t c h ha hk hc
    obtain ⟨he, hea⟩ := ha e List.mem_cons_self
    have hk' : ∀ k ∈ keys (store hash t e), k ∈ ks := by
      intro k hx
      rcases (keys_store h e k).mp hx with rfl | hx
      · exact he
      · exact hk k hx
    have hc' : c ∈ keys t ∨ c ≠ e.1 := by
      rcases hc with hc | hc
      · exact .inl hc
      · exact .inr (hc e List.mem_cons_self)
    have hc'' : c ∈ keys (store hash t e) ∨ ∀ x ∈ es, c ≠ x.1 := by
      rcases hc with hc | hc
      · exact .inl ((keys_store h e c).mpr (.inr hc))
      · exact .inr (fun x hx => hc x (List.mem_cons_of_mem _ hx))
    have hst := ahead_store h e hc' (fun k hx => hea k (hk k hx))
    obtain ⟨i1, i2, i3, i4, i5⟩ := ih (store hash t e) c (wf_store h e)
      (fun x hx => ha x (List.mem_cons_of_mem _ hx)) hk' hc''
    refine ⟨i1, i2, ?_, ?_, ?_⟩
    · intro k hx; exact i3 k ((keys_store h e k).mpr (.inr hx))
    · intro k hx; exact i4 k ((hst k).1 hx)
    · intro k hx hkt
      exact (hst k).2 (i5 k hx ((keys_store h e k).mpr (.inr hkt))) hkt

theorem find_some {hash : MKey → Nat} {t : Table} (h : WF hash t) {k : MKey} (hk : k ∈ keys t) :
    ∃ v, find hash t k = some v := by
  unfold find
  rw [mem_keys h] at hk
  cases hx : (bucketOf hash t k).lookup k with
  | some v => exact ⟨v, rfl⟩
  | none =>
    rw [List.lookup_eq_none_iff] at hx
    obtain ⟨x, hxm, hxk⟩ := List.mem_map.mp hk
    have := hx x hxm
    simp [hxk] at this

/-- The walk reports what is ahead, nothing twice, and nothing it has passed. -/
theorem walk_all {hash : MKey → Nat} {ks : List MKey} : ∀ (sched : List Meanwhile) (t : Table) (c : MKey), WF hash t →
    (∀ e ∈ stored sched, e.1 ∈ ks ∧ ∀ k ∈ ks, k ≠ e.1 → hash k ≠ hash e.1) → (∀ k ∈ keys t, k ∈ ks) →
    (c ∈ keys t ∨ ∀ e ∈ stored sched, c ≠ e.1) →
    ((walk hash t c sched).2.1 = true → ∀ k, Ahead hash t c k → k ∈ (walk hash t c sched).1.map (·.1)) ∧
    ((walk hash t c sched).1.map (·.1)).Nodup ∧
    (∀ k, k ∈ keys t → ¬ Ahead hash t c k → k ∉ (walk hash t c sched).1.map (·.1)) := by
  intro sched
  induction sched with
  | nil =>
    intro t c _ _ _ _
    exact ⟨fun h => by simp [walk] at h, by simp [walk], fun k _ _ => by simp [walk]⟩
  | cons s sched ih =>
    intro t c h ha hk hc
    have ha1 : ∀ e ∈ s.before, e.1 ∈ ks ∧ ∀ k ∈ ks, k ≠ e.1 → hash k ≠ hash e.1 :=
      fun e he => ha e (by simp [stored, he])
    have ha2 : ∀ e ∈ s.within, e.1 ∈ ks ∧ ∀ k ∈ ks, k ≠ e.1 → hash k ≠ hash e.1 :=
      fun e he => ha e (by simp [stored, he])
    have ha3 : ∀ e ∈ stored sched, e.1 ∈ ks ∧ ∀ k ∈ ks, k ≠ e.1 → hash k ≠ hash e.1 :=
      fun e he => ha e (by
        unfold stored at he ⊢
        rw [List.flatMap_cons]
        exact List.mem_append_right _ he)
    have hc1 : c ∈ keys t ∨ ∀ e ∈ s.before, c ≠ e.1 := by
      rcases hc with hc | hc
      · exact .inl hc
      · exact .inr (fun e he => hc e (by simp [stored, he]))
    obtain ⟨i1, i2, i3, i4, i5⟩ := stores s.before t c h ha1 hk hc1
    rw [walk]
    generalize s.before.foldl (store hash) t = t1 at i1 i2 i3 i4 i5 ⊢
    unfold turn
    cases hn : nextKey hash t1 c with
    | none =>
      dsimp only
      refine ⟨fun _ k hx => absurd (i4 k hx) (next_none i1 hn k), by simp, fun k _ _ => by simp⟩
    | some n =>
      obtain ⟨j1, j2⟩ := next_some i1 hn
      obtain ⟨l1, l2, l3, l4, l5⟩ := stores s.within t1 n i1 ha2 i2 (.inl j1.1)
      dsimp only
      generalize s.within.foldl (store hash) t1 = t2 at l1 l2 l3 l4 l5 ⊢
      obtain ⟨v, hv⟩ := find_some l1 (l3 n j1.1)
      rw [hv]
      dsimp only
      obtain ⟨m1, m2, m3⟩ := ih t2 n l1 ha3 l2 (.inl (l3 n j1.1))
      have hnn : n ∉ (walk hash t2 n sched).1.map (·.1) := by
        refine m3 n (l3 n j1.1) ?_
        intro hx
        exact ((j2 n).mp (l5 n hx j1.1)).2 rfl
      refine ⟨?_, ?_, ?_⟩
      · intro hf k hx
        rw [List.map_cons, List.mem_cons]
        by_cases e : k = n
        · exact .inl e
        · exact .inr (m1 hf k (l4 k ((j2 k).mpr ⟨i4 k hx, e⟩)))
      · rw [List.map_cons, List.nodup_cons]
        exact ⟨hnn, m2⟩
      · intro k hkt hna
        rw [List.map_cons, List.mem_cons, not_or]
        have hk1 := i3 k hkt
        have hna1 : ¬ Ahead hash t1 c k := fun hx => hna (i5 k hx hkt)
        refine ⟨?_, ?_⟩
        · rintro rfl
          exact hna1 j1
        · refine m3 k (l3 k hk1) ?_
          intro hx
          exact hna1 ((j2 k).mp (l5 k hx hk1)).1

theorem wf_stores {hash : MKey → Nat} (es : List (MKey × MVal)) {t : Table} (h : WF hash t) :
    WF hash (es.foldl (store hash) t) := by
  induction es generalizing t with
  | nil => exact h
  | cons e es ih => exact ih (wf_store h e)

theorem wf_filled {hash : MKey → Nat} {n : Nat} (h : ∀ k, hash k < n) (es : List (MKey × MVal)) :
    WF hash (filled hash n es) := wf_stores es (wf_nil hash n h)

theorem store_entries {hash : MKey → Nat} (es : List (MKey × MVal)) : ∀ {t : Table} {x : MKey × MVal},
    x ∈ (es.foldl (store hash) t).flatten → x ∈ t.flatten ∨ x ∈ es := by
  induction es with
  | nil => intro t x h; exact .inl h
  | cons e es ih =>
    intro t x h
    rcases ih h with h | h
    · obtain ⟨b, hb, hx⟩ := List.mem_flatten.mp h
      unfold store at hb
      rcases List.mem_or_eq_of_mem_set hb with hb | rfl
      · exact .inl (List.mem_flatten.mpr ⟨b, hb, hx⟩)
      · rcases List.mem_cons.mp hx with rfl | hx
        · exact .inr List.mem_cons_self
        · have hx := (List.mem_filter.mp hx).1
          unfold bucketOf at hx
          cases hg : t[hash e.1]? with
          | none => rw [hg] at hx; cases hx
          | some b' =>
            rw [hg] at hx
            exact .inl (List.mem_flatten.mpr ⟨b', List.mem_of_getElem? hg, hx⟩)
    · exact .inr (List.mem_cons_of_mem _ h)

theorem find_mem {hash : MKey → Nat} {t : Table} {k : MKey} {v : MVal} (h : find hash t k = some v) :
    (k, v) ∈ t.flatten := by
  unfold find bucketOf at h
  cases hg : t[hash k]? with
  | none => rw [hg] at h; cases h
  | some b =>
    rw [hg] at h
    have hl : b.lookup k = some v := h
    have : (k, v) ∈ b := by
      clear h hg
      induction b with
      | nil => cases hl
      | cons y b ih =>
        rw [List.lookup_cons] at hl
        by_cases e : k = y.1
        · have e' : (k == y.1) = true := by simpa using e
          rw [e'] at hl
          cases hl
          rw [e]
          exact List.mem_cons_self
        · have e' : (k == y.1) = false := by simpa using e
          rw [e'] at hl
          exact List.mem_cons_of_mem _ (ih hl)
    exact List.mem_flatten.mpr ⟨b, List.mem_of_getElem? hg, this⟩

theorem walk_sound {hash : MKey → Nat} : ∀ (sched : List Meanwhile) (t : Table) (c : MKey) (x : MKey × MVal),
    x ∈ (walk hash t c sched).1 → x ∈ t.flatten ∨ x ∈ stored sched := by
  intro sched
  induction sched with
  | nil => intro t c x h; cases h
  | cons s sched ih =>
    intro t c x h
    rw [walk] at h
    unfold turn at h
    have hst : stored (s :: sched) = (s.before ++ s.within) ++ stored sched := by unfold stored; rw [List.flatMap_cons]
    rw [hst]
    cases hn : nextKey hash (s.before.foldl (store hash) t) c with
    | none => rw [hn] at h; cases h
    | some n =>
      rw [hn] at h
      dsimp only at h
      cases hf : find hash (s.within.foldl (store hash) (s.before.foldl (store hash) t)) n with
      | none => rw [hf] at h; cases h
      | some v =>
        rw [hf] at h
        dsimp only at h
        have key : x ∈ (s.within.foldl (store hash) (s.before.foldl (store hash) t)).flatten →
            x ∈ t.flatten ∨ x ∈ (s.before ++ s.within) ++ stored sched := by
          intro hx
          rcases store_entries _ hx with hx | hx
          · rcases store_entries _ hx with hx | hx
            · exact .inl hx
            · exact .inr (List.mem_append_left _ (List.mem_append_left _ hx))
          · exact .inr (List.mem_append_left _ (List.mem_append_right _ hx))
        rcases List.mem_cons.mp h with rfl | h
        · exact key (find_mem hf)
        · rcases ih _ _ _ h with h | h
          · exact key h
          · exact .inr (List.mem_append_right _ h)

end Swoll.Lemmas.Walk
