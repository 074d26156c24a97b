import Verif.Lemmas.Walk
/-
C144: reading the metrics while calls are being counted.
-/
namespace Swoll.Props.Walk
open Swoll Swoll.Probe Swoll.Walk Swoll.Spec.Walk Swoll.Lemmas.Walk

/-! A table to show that what follows speaks of something: the bucket of a key is its system call modulo four. -/

def demoHash (k : MKey) : Nat := k.syscall.toNat % 4

theorem demo_fits (k : MKey) : demoHash k < 4 := Nat.mod_lt _ (by decide)

def kA : MKey := ⟨7, 1, 0⟩
def kB : MKey := ⟨7, 5, 0⟩
def kC : MKey := ⟨8, 2, 0⟩
def kD : MKey := ⟨7, 3, 2⟩
def one : MVal := ⟨1, 10, 100, 110, 100⟩
def two : MVal := ⟨2, 20, 100, 130, 120⟩

theorem apart_stored {hash : MKey → Nat} {t : Table} {sched : List Meanwhile}
    (ha : Apart hash (keys t) ((stored sched).map (·.1))) :
    (∀ e ∈ stored sched, e.1 ∈ keys t ++ (stored sched).map (·.1) ∧
      ∀ k ∈ keys t ++ (stored sched).map (·.1), k ≠ e.1 → hash k ≠ hash e.1) ∧
    ∀ e ∈ stored sched, (⟨0, 0, 0⟩ : MKey) ≠ e.1 := by
  refine ⟨fun e he => ?_, fun e he => ?_⟩
  · have hm : e.1 ∈ (stored sched).map (·.1) := List.mem_map_of_mem he
    exact ⟨List.mem_append_right _ hm, ha.2 e.1 hm⟩
  · intro x
    exact ha.1 e.1 (List.mem_append_right _ (List.mem_map_of_mem he)) x.symm

/-- Part of C144: if nothing that is counted during the read shares a bucket with anything else, a read that has ended has
reported every metric that was there when it began, and nothing twice, whatever was counted meanwhile and whenever.
Missing: counting in shared buckets, see `c144_missed_violated`, `c144_twice_violated` and `c144_endless_violated`. -/
theorem c144_all_once_partial (hash : MKey → Nat) (n : Nat) (hn : ∀ k, hash k < n) (es : List (MKey × MVal))
    (sched : List Meanwhile) (ha : Apart hash (keys (filled hash n es)) ((stored sched).map (·.1)))
    (ended : (queryAll hash (filled hash n es) sched).2.1 = true) :
    (∀ k ∈ keys (filled hash n es), k ∈ (queryAll hash (filled hash n es) sched).1.map (·.1)) ∧
    ((queryAll hash (filled hash n es) sched).1.map (·.1)).Nodup := by
  obtain ⟨h1, h2⟩ := apart_stored ha
  obtain ⟨w1, w2, -⟩ := walk_all sched (filled hash n es) ⟨0, 0, 0⟩ (wf_filled hn es) h1
    (fun k hk => List.mem_append_left _ hk) (.inr h2)
  refine ⟨fun k hk => w1 ended k ⟨hk, fun hz => ?_⟩, w2⟩
  exact absurd rfl (ha.1 _ (List.mem_append_left _ hz))

/-- Something of the sort: a metric that is there is counted again, a new one appears. -/
def demoSched : List Meanwhile :=
  [⟨[], [(kC, two)]⟩, ⟨[(kD, one)], []⟩, ⟨[(kD, two)], [(kC, two)]⟩, {}, {}]

example : (queryAll demoHash (filled demoHash 4 [(kA, one), (kC, one)]) demoSched).1 =
      [(kA, one), (kC, two), (kD, two)] ∧
    (queryAll demoHash (filled demoHash 4 [(kA, one), (kC, one)]) demoSched).2.1 = true := by decide +kernel

instance (hash : MKey → Nat) (old new : List MKey) : Decidable (Apart hash old new) := by unfold Apart; infer_instance

example : Apart demoHash (keys (filled demoHash 4 [(kA, one), (kC, one)])) ((stored demoSched).map (·.1)) := by
  decide +kernel

/-- What is reported was there: each metric has a value that it had when the read began or that was stored during it. -/
theorem c144_values (hash : MKey → Nat) (n : Nat) (es : List (MKey × MVal)) (sched : List Meanwhile)
    (x : MKey × MVal) (hx : x ∈ (queryAll hash (filled hash n es) sched).1) : x ∈ es ∨ x ∈ stored sched := by
  rcases walk_sound sched _ _ x hx with h | h
  · rcases store_entries es h with h | h
    · simp at h
    · exact .inl h
  · exact .inr h

/-! The end of a read. -/

theorem nodup_len : ∀ {a b : List MKey}, a.Nodup → (∀ x ∈ a, x ∈ b) → a.length ≤ b.length
  | [], _, _, _ => Nat.zero_le _
  | x :: a, b, hn, hs => by
    have hx := hs x (by simp)
    obtain ⟨h1, h2⟩ := List.nodup_cons.1 hn
    have := nodup_len (b := b.erase x) h2 (fun y hy =>
      (List.mem_erase_of_ne (by intro e; rw [e] at hy; exact h1 hy)).2 (hs y (List.mem_cons_of_mem _ hy)))
    rw [List.length_erase_of_mem hx] at this
    have := List.length_pos_of_mem hx
    simp only [List.length_cons]
    omega

theorem walk_len {hash : MKey → Nat} : ∀ (sched : List Meanwhile) (t : Table) (c : MKey),
    (walk hash t c sched).2.1 = false → (walk hash t c sched).1.length = sched.length := by
  intro sched
  induction sched with
  | nil => intro t c _; rfl
  | cons s sched ih =>
    intro t c h
    rw [walk] at h ⊢
    cases hx : turn hash (s.before.foldl (store hash) t) c s.within with
    | mk o t' =>
      rw [hx] at h
      cases o with
      | none => cases h
      | some e =>
        dsimp only at h ⊢
        rw [List.length_cons, List.length_cons, ih _ _ h]

/-- Under the same condition every read ends: it takes at most one round more than there are keys, the new ones
included. -/
theorem c144_ends_partial (hash : MKey → Nat) (n : Nat) (hn : ∀ k, hash k < n) (es : List (MKey × MVal))
    (sched : List Meanwhile) (ha : Apart hash (keys (filled hash n es)) ((stored sched).map (·.1)))
    (long : (keys (filled hash n es)).length + (stored sched).length < sched.length) :
    (queryAll hash (filled hash n es) sched).2.1 = true := by
  cases h : (queryAll hash (filled hash n es) sched).2.1 with
  | true => rfl
  | false =>
    exfalso
    obtain ⟨h1, h2⟩ := apart_stored ha
    obtain ⟨-, w2, -⟩ := walk_all sched (filled hash n es) ⟨0, 0, 0⟩ (wf_filled hn es) h1
      (fun k hk => List.mem_append_left _ hk) (.inr h2)
    have hl := walk_len sched _ _ h
    have := nodup_len w2 (b := keys (filled hash n es) ++ (stored sched).map (·.1)) (by
      intro k hk
      obtain ⟨x, hx, rfl⟩ := List.mem_map.mp hk
      rcases walk_sound sched _ _ x hx with hx | hx
      · exact List.mem_append_left _ (List.mem_map_of_mem hx)
      · exact List.mem_append_right _ (List.mem_map_of_mem hx))
    simp only [List.length_map, List.length_append] at this
    omega

example : Apart demoHash (keys (filled demoHash 4 [(kA, one)])) ((stored [{}, ⟨[(kD, one)], []⟩, {}]).map (·.1)) ∧
    (keys (filled demoHash 4 [(kA, one)])).length + (stored [{}, ⟨[(kD, one)], []⟩, {}]).length < 3 := by decide +kernel

/-! ### Pruning -/

theorem wf_remove {hash : MKey → Nat} {t : Table} (h : WF hash t) (k : MKey) : WF hash (remove hash t k) := by
  refine ⟨?_, ?_, ?_⟩
  · intro x; unfold remove; rw [List.length_set]; exact h.fits x
  all_goals
    intro i b hb
    unfold remove at hb
    rw [List.getElem?_set] at hb
    by_cases he : hash k = i
    · subst he
      rw [if_pos rfl, if_pos (h.fits _)] at hb
      cases hb
      first
      | exact fun x hx => h.place _ _ (bucket_get h _) x (List.mem_filter.mp hx).1
      | exact List.Nodup.sublist (List.Sublist.map _ List.filter_sublist) (h.once _ _ (bucket_get h k))
    · rw [if_neg he] at hb
      first
      | exact h.place i b hb
      | exact h.once i b hb

theorem keys_remove {hash : MKey → Nat} {t : Table} (h : WF hash t) (g k : MKey) :
    k ∈ keys (remove hash t g) ↔ k ∈ keys t ∧ k ≠ g := by
  rw [mem_keys (wf_remove h g), mem_keys h]
  by_cases hk : hash k = hash g
  · have h1 : bucketOf hash (remove hash t g) k = (bucketOf hash t g).filter fun x => x.1 ≠ g := by
      have h1 : (remove hash t g)[hash k]? = some ((bucketOf hash t g).filter fun x => x.1 ≠ g) := by
        unfold remove
        rw [List.getElem?_set, hk, if_pos rfl, if_pos (h.fits _)]
      rw [bucket_get (wf_remove h g)] at h1
      exact Option.some.inj h1
    have hb : bucketOf hash t k = bucketOf hash t g := by unfold bucketOf; rw [hk]
    rw [h1, hb]
    constructor
    · intro hm
      obtain ⟨x, hx, hxk⟩ := List.mem_map.mp hm
      obtain ⟨hx1, hx2⟩ := List.mem_filter.mp hx
      exact ⟨List.mem_map.mpr ⟨x, hx1, hxk⟩, by rw [hxk] at hx2; simpa using hx2⟩
    · rintro ⟨hm, hne⟩
      obtain ⟨x, hx, hxk⟩ := List.mem_map.mp hm
      exact List.mem_map.mpr ⟨x, List.mem_filter.mpr ⟨hx, by simp [hxk, hne]⟩, hxk⟩
  · have h1 : bucketOf hash (remove hash t g) k = bucketOf hash t k := by
      have h1 : (remove hash t g)[hash k]? = some (bucketOf hash t k) := by
        unfold remove
        rw [List.getElem?_set, if_neg (fun x => hk x.symm)]
        exact bucket_get h k
      rw [bucket_get (wf_remove h g)] at h1
      exact Option.some.inj h1
    rw [h1]
    exact ⟨fun hm => ⟨hm, fun e => hk (by rw [e])⟩, fun hm => hm.1⟩

theorem keys_removes {hash : MKey → Nat} (gs : List MKey) : ∀ {t : Table}, WF hash t → ∀ k,
    k ∈ keys (gs.foldl (remove hash) t) ↔ k ∈ keys t ∧ k ∉ gs := by
  induction gs with
  | nil => intro t _ k; simp
  | cons g gs ih =>
    intro t h k
    rw [List.foldl_cons, ih (wf_remove h g), keys_remove h]
    simp only [List.mem_cons, not_or]
    constructor
    · rintro ⟨⟨h1, h2⟩, h3⟩; exact ⟨h1, h2, h3⟩
    · rintro ⟨h1, h2, h3⟩; exact ⟨⟨h1, h2⟩, h3⟩

theorem keys_stores {hash : MKey → Nat} (es : List (MKey × MVal)) : ∀ {t : Table}, WF hash t → ∀ k,
    k ∈ keys t → k ∈ keys (es.foldl (store hash) t) := by
  induction es with
  | nil => intro t _ k h; exact h
  | cons e es ih => intro t h k hk; exact ih (wf_store h e) k ((keys_store h e k).mpr (.inr hk))

/-- A walk takes nothing away. -/
theorem walk_keeps {hash : MKey → Nat} : ∀ (sched : List Meanwhile) (t : Table) (c : MKey), WF hash t →
    WF hash (walk hash t c sched).2.2 ∧ ∀ k ∈ keys t, k ∈ keys (walk hash t c sched).2.2 := by
  intro sched
  induction sched with
  | nil => intro t c h; exact ⟨h, fun _ x => x⟩
  | cons s sched ih =>
    intro t c h
    rw [walk]
    unfold turn
    cases nextKey hash (s.before.foldl (store hash) t) c with
    | none => exact ⟨wf_stores _ h, fun k hk => keys_stores _ h k hk⟩
    | some n =>
      dsimp only
      have h2 := wf_stores s.within (wf_stores s.before h)
      have h3 : ∀ k ∈ keys t, k ∈ keys (s.within.foldl (store hash) (s.before.foldl (store hash) t)) :=
        fun k hk => keys_stores _ (wf_stores _ h) k (keys_stores _ h k hk)
      cases find hash (s.within.foldl (store hash) (s.before.foldl (store hash) t)) n with
      | none => exact ⟨h2, h3⟩
      | some v =>
        obtain ⟨i1, i2⟩ := ih _ n h2
        exact ⟨i1, fun k hk => i2 k (h3 k hk)⟩

/-- Pruning a namespace while calls are counted leaves every metric of other namespaces where it is. -/
theorem c144_prune_others (hash : MKey → Nat) (n : Nat) (hn : ∀ k, hash k < n) (es : List (MKey × MVal))
    (sched : List Meanwhile) (ns : BitVec 32) (k : MKey) (hk : k ∈ keys (filled hash n es)) (hne : k.pidNs ≠ ns) :
    k ∈ keys (prune hash (filled hash n es) ns sched).2.2 := by
  obtain ⟨w1, w2⟩ := walk_keeps sched (filled hash n es) ⟨0, 0, 0⟩ (wf_filled hn es)
  unfold prune
  rw [keys_removes _ w1]
  refine ⟨w2 k hk, ?_⟩
  intro hx
  have := (List.mem_filter.mp hx).2
  simp [hne] at this

example : kC ∈ keys (filled demoHash 4 [(kA, one), (kC, one)]) ∧ kC.pidNs ≠ 7 := by decide +kernel

/-- Part of C144: under the condition of `c144_all_once_partial`, pruning removes every metric of the namespace that was
there when it began. Missing: counting in shared buckets, see `c144_prune_violated`. -/
theorem c144_prune_partial (hash : MKey → Nat) (n : Nat) (hn : ∀ k, hash k < n) (es : List (MKey × MVal))
    (sched : List Meanwhile) (ns : BitVec 32)
    (ha : Apart hash (keys (filled hash n es)) ((stored sched).map (·.1)))
    (ended : (prune hash (filled hash n es) ns sched).2.1 = true) (k : MKey) (hk : k ∈ keys (filled hash n es))
    (he : k.pidNs = ns) : k ∉ keys (prune hash (filled hash n es) ns sched).2.2 := by
  obtain ⟨w1, -⟩ := walk_keeps sched (filled hash n es) ⟨0, 0, 0⟩ (wf_filled hn es)
  have hq := (c144_all_once_partial hash n hn es sched ha ended).1 k hk
  unfold prune
  rw [keys_removes _ w1]
  rintro ⟨-, hx⟩
  exact hx (List.mem_filter.mpr ⟨hq, by simp [he]⟩)

example : (prune demoHash (filled demoHash 4 [(kA, one), (kC, one)]) 7 demoSched).2.1 = true ∧
    (prune demoHash (filled demoHash 4 [(kA, one), (kC, one)]) 7 demoSched).1 = 2 := by decide +kernel

/-! ### Where it fails: two metrics in one bucket -/

/-- A table with one bucket in use. -/
def single (n h : Nat) (b : Bucket) : Table := (List.replicate n []).set h b

theorem single_flatten : ∀ (n h : Nat) (b : Bucket), h < n → (single n h b).flatten = b := by
  intro n
  induction n with
  | zero => intro h b hh; omega
  | succ n ih =>
    intro h b hh
    unfold single
    rw [List.replicate_succ]
    cases h with
    | zero => simp
    | succ h =>
      rw [List.set_cons_succ, List.flatten_cons, List.nil_append]
      exact ih h b (by omega)

theorem single_bucket (hash : MKey → Nat) (n : Nat) (b : Bucket) (k : MKey) (h : hash k < n) :
    bucketOf hash (single n (hash k) b) k = b := by
  unfold bucketOf single
  rw [List.getElem?_set, if_pos rfl, if_pos (by simpa using h)]
  rfl

theorem single_store (hash : MKey → Nat) (n h : Nat) (b : Bucket) (e : MKey × MVal) (he : hash e.1 = h) (hh : h < n) :
    store hash (single n h b) e = single n h (e :: b.filter fun x => x.1 ≠ e.1) := by
  subst he
  unfold store
  rw [single_bucket hash n b e.1 hh]
  unfold single
  rw [List.set_set]

theorem single_drop (n h : Nat) (b : Bucket) : ((single n h b).drop (h + 1)).flatten = [] := by
  unfold single
  rw [List.drop_set_of_lt (Nat.lt_succ_self h), List.drop_replicate]
  simp

/-- The first key. -/
theorem single_first (hash : MKey → Nat) (n h : Nat) (x : MKey × MVal) (b : Bucket) (z : MKey)
    (hz : z ∉ (x :: b).map (·.1)) (hh : h < n) : nextKey hash (single n h (x :: b)) z = some x.1 := by
  have hd : ((bucketOf hash (single n h (x :: b)) z).dropWhile fun y => y.1 ≠ z) = [] := by
    apply drop_none
    intro hm
    obtain ⟨y, hy, hyz⟩ := List.mem_map.mp hm
    unfold bucketOf at hy
    cases hg : (single n h (x :: b))[hash z]? with
    | none => rw [hg] at hy; cases hy
    | some b' =>
      rw [hg] at hy
      have : y ∈ (single n h (x :: b)).flatten := List.mem_flatten.mpr ⟨b', List.mem_of_getElem? hg, hy⟩
      rw [single_flatten n h _ hh] at this
      exact hz (List.mem_map.mpr ⟨y, this, hyz⟩)
  unfold nextKey
  rw [hd]
  dsimp only
  rw [single_flatten n h _ hh]
  rfl

theorem single_next (hash : MKey → Nat) (n : Nat) (x y : MKey × MVal) (h : hash x.1 < n) :
    nextKey hash (single n (hash x.1) [x, y]) x.1 = some y.1 := by
  unfold nextKey
  rw [single_bucket hash n _ x.1 h]
  simp

theorem single_last (hash : MKey → Nat) (n : Nat) (x y : MKey × MVal) (h : hash y.1 < n) (hne : x.1 ≠ y.1) :
    nextKey hash (single n (hash y.1) [x, y]) y.1 = none := by
  unfold nextKey
  rw [single_bucket hash n _ y.1 h]
  have : (List.dropWhile (fun z : MKey × MVal => decide (z.1 ≠ y.1)) [x, y]) = [y] := by
    simp [List.dropWhile, hne]
  rw [this]
  dsimp only
  rw [single_drop]
  rfl

theorem single_find (hash : MKey → Nat) (n : Nat) (x y : MKey × MVal) (h : hash x.1 < n) :
    find hash (single n (hash x.1) [x, y]) x.1 = some x.2 := by
  unfold find
  rw [single_bucket hash n _ x.1 h]
  simp [List.lookup]

theorem single_find2 (hash : MKey → Nat) (n : Nat) (x y : MKey × MVal) (h : hash y.1 < n) (hne : x.1 ≠ y.1) :
    find hash (single n (hash y.1) [x, y]) y.1 = some y.2 := by
  unfold find
  rw [single_bucket hash n _ y.1 h]
  have e : (y.1 == x.1) = false := by simpa using fun e => hne e.symm
  simp [List.lookup, e]

/-- Two metrics that share a bucket, the first stored last. -/
theorem filled_two (hash : MKey → Nat) (n : Nat) (x y : MKey × MVal) (h : hash x.1 < n) (hs : hash y.1 = hash x.1)
    (hne : x.1 ≠ y.1) : filled hash n [y, x] = single n (hash x.1) [x, y] := by
  have h0 : List.replicate n [] = single n (hash x.1) [] := by
    unfold single
    apply List.ext_getElem?
    intro i
    rw [List.getElem?_set]
    by_cases e : hash x.1 = i
    · subst e
      rw [if_pos rfl, if_pos (by simpa using h), List.getElem?_replicate, if_pos h]
    · rw [if_neg e]
  unfold filled
  rw [h0, List.foldl_cons, List.foldl_cons, List.foldl_nil, single_store hash n _ _ y hs h,
    single_store hash n _ _ x rfl h]
  have : y.1 ≠ x.1 := fun e => hne e.symm
  simp [this]

theorem swap_front (hash : MKey → Nat) (n : Nat) (x y : MKey × MVal) (v : MVal) (h : hash x.1 < n)
    (hs : hash y.1 = hash x.1) (hne : x.1 ≠ y.1) :
    store hash (single n (hash x.1) [x, y]) (y.1, v) = single n (hash y.1) [(y.1, v), x] := by
  rw [single_store hash n _ _ (y.1, v) hs h, hs]
  simp [hne]

/-- The full claim fails: whenever two metrics share a bucket, a read misses one of them, which is there before, during
and after the read, if its call is counted once more after the first has been read. -/
theorem c144_missed_violated (hash : MKey → Nat) (n : Nat) (hn : ∀ k, hash k < n) (x y : MKey × MVal) (v : MVal)
    (hs : hash y.1 = hash x.1) (hne : x.1 ≠ y.1) (hx : x.1 ≠ ⟨0, 0, 0⟩) (hy : y.1 ≠ ⟨0, 0, 0⟩) :
    (queryAll hash (filled hash n [y, x]) [{}, ⟨[(y.1, v)], []⟩]).1 = [x] ∧
    (queryAll hash (filled hash n [y, x]) [{}, ⟨[(y.1, v)], []⟩]).2.1 = true ∧
    y.1 ∈ keys (queryAll hash (filled hash n [y, x]) [{}, ⟨[(y.1, v)], []⟩]).2.2 := by
  have hf := single_first hash n (hash x.1) x [y] ⟨0, 0, 0⟩ (by
    simp only [List.map_cons, List.map_nil, List.mem_cons, List.not_mem_nil, or_false, not_or]
    exact ⟨fun e => hx e.symm, fun e => hy e.symm⟩) (hn _)
  have hl : nextKey hash (single n (hash y.1) [(y.1, v), x]) x.1 = none := by
    rw [hs]
    exact single_last hash n (y.1, v) x (hn _) (fun e => hne e.symm)
  have hw : queryAll hash (filled hash n [y, x]) [{}, ⟨[(y.1, v)], []⟩] =
      ([x], true, single n (hash y.1) [(y.1, v), x]) := by
    unfold Walk.queryAll
    rw [filled_two hash n x y (hn _) hs hne, walk]
    unfold turn
    simp only [List.foldl_nil, hf, single_find hash n x y (hn _)]
    rw [walk]
    unfold turn
    simp only [List.foldl_cons, List.foldl_nil, swap_front hash n x y v (hn _) hs hne, hl]
  rw [hw]
  refine ⟨rfl, rfl, ?_⟩
  unfold keys
  rw [single_flatten _ _ _ (hn _)]
  simp

example : demoHash kB = demoHash kA ∧ kA ≠ kB ∧ kA ≠ ⟨0, 0, 0⟩ ∧ kB ≠ ⟨0, 0, 0⟩ := by decide +kernel

/-- The full claim fails: whenever two metrics share a bucket, a read reports one of them twice if the other is counted
once more at the right time. -/
theorem c144_twice_violated (hash : MKey → Nat) (n : Nat) (hn : ∀ k, hash k < n) (x y : MKey × MVal) (v : MVal)
    (hs : hash y.1 = hash x.1) (hne : x.1 ≠ y.1) (hx : x.1 ≠ ⟨0, 0, 0⟩) (hy : y.1 ≠ ⟨0, 0, 0⟩) :
    (queryAll hash (filled hash n [y, x]) [{}, {}, ⟨[(y.1, v)], []⟩, {}]).1 = [x, y, x] ∧
    (queryAll hash (filled hash n [y, x]) [{}, {}, ⟨[(y.1, v)], []⟩, {}]).2.1 = true := by
  have hf := single_first hash n (hash x.1) x [y] ⟨0, 0, 0⟩ (by
    simp only [List.map_cons, List.map_nil, List.mem_cons, List.not_mem_nil, or_false, not_or]
    exact ⟨fun e => hx e.symm, fun e => hy e.symm⟩) (hn _)
  have hl : nextKey hash (single n (hash y.1) [(y.1, v), x]) x.1 = none := by
    rw [hs]
    exact single_last hash n (y.1, v) x (hn _) (fun e => hne e.symm)
  have h2 : find hash (single n (hash x.1) [x, y]) y.1 = some y.2 := by
    rw [← hs]; exact single_find2 hash n x y (hn _) hne
  have h3 : nextKey hash (single n (hash y.1) [(y.1, v), x]) y.1 = some x.1 :=
    single_next hash n (y.1, v) x (hn _)
  have h4 : find hash (single n (hash y.1) [(y.1, v), x]) x.1 = some x.2 := by
    rw [hs]; exact single_find2 hash n (y.1, v) x (hn _) (fun e => hne e.symm)
  have hw : queryAll hash (filled hash n [y, x]) [{}, {}, ⟨[(y.1, v)], []⟩, {}] =
      ([x, y, x], true, single n (hash y.1) [(y.1, v), x]) := by
    unfold Walk.queryAll
    rw [filled_two hash n x y (hn _) hs hne, walk]
    unfold turn
    simp only [List.foldl_nil, hf, single_find hash n x y (hn _)]
    rw [walk]
    unfold turn
    simp only [List.foldl_nil, single_next hash n x y (hn _), h2]
    rw [walk]
    unfold turn
    simp only [List.foldl_cons, List.foldl_nil, swap_front hash n x y v (hn _) hs hne, h3, h4]
    rw [walk]
    unfold turn
    simp only [List.foldl_nil, hl]
  rw [hw]
  exact ⟨rfl, rfl⟩

/-- The probe counts the metric that has just been read, before every round. -/
def chase : MKey × MVal → MKey × MVal → Nat → List Meanwhile
  | _, _, 0 => []
  | x, y, m + 1 => ⟨[y], []⟩ :: chase y x m

theorem walk_chase (hash : MKey → Nat) (n : Nat) (hn : ∀ k, hash k < n) : ∀ (m : Nat) (x y : MKey × MVal),
    hash y.1 = hash x.1 → x.1 ≠ y.1 →
    (walk hash (single n (hash x.1) [x, y]) y.1 (chase x y m)).2.1 = false := by
  intro m
  induction m with
  | zero => intro x y _ _; rfl
  | succ m ih =>
    intro x y hs hne
    rw [chase, walk]
    unfold turn
    have h1 : store hash (single n (hash x.1) [x, y]) y = single n (hash y.1) [y, x] :=
      swap_front hash n x y y.2 (hn _) hs hne
    have h4 : find hash (single n (hash y.1) [y, x]) x.1 = some x.2 := by
      rw [hs]; exact single_find2 hash n y x (hn _) (fun e => hne e.symm)
    simp only [List.foldl_cons, List.foldl_nil, h1, single_next hash n y x (hn _), h4]
    exact ih y x hs.symm (fun e => hne e.symm)

/-- The full claim fails: whenever two metrics share a bucket and are counted as often as they are read, a read goes on
without end, over two metrics. -/
theorem c144_endless_violated (hash : MKey → Nat) (n : Nat) (hn : ∀ k, hash k < n) (x y : MKey × MVal)
    (hs : hash y.1 = hash x.1) (hne : x.1 ≠ y.1) (hx : x.1 ≠ ⟨0, 0, 0⟩) (hy : y.1 ≠ ⟨0, 0, 0⟩) (m : Nat) :
    ∃ sched : List Meanwhile, sched.length = m ∧ (∀ s ∈ sched, s.before.length + s.within.length ≤ 1) ∧
      (∀ e ∈ stored sched, e = x ∨ e = y) ∧ (queryAll hash (filled hash n [y, x]) sched).2.1 = false ∧
      (queryAll hash (filled hash n [y, x]) sched).1.length = m := by
  have hf := single_first hash n (hash x.1) x [y] ⟨0, 0, 0⟩ (by
    simp only [List.map_cons, List.map_nil, List.mem_cons, List.not_mem_nil, or_false, not_or]
    exact ⟨fun e => hx e.symm, fun e => hy e.symm⟩) (hn _)
  have h2 : find hash (single n (hash x.1) [x, y]) y.1 = some y.2 := by
    rw [← hs]; exact single_find2 hash n x y (hn _) hne
  have hc : ∀ (m : Nat) (a b : MKey × MVal), (chase a b m).length = m ∧
      (∀ s ∈ chase a b m, s.before.length + s.within.length ≤ 1) ∧ ∀ e ∈ stored (chase a b m), e = a ∨ e = b := by
    intro m
    induction m with
    | zero => intro a b; exact ⟨rfl, (fun s hs => by cases hs), (fun e he => by cases he)⟩
    | succ m ih =>
      intro a b
      obtain ⟨i1, i2, i3⟩ := ih b a
      refine ⟨by rw [chase, List.length_cons, i1], ?_, ?_⟩
      · intro s hs
        rw [chase, List.mem_cons] at hs
        rcases hs with rfl | hs
        · exact Nat.le_refl 1
        · exact i2 s hs
      · intro e he
        rw [chase] at he
        unfold stored at he
        rw [List.flatMap_cons, List.mem_append] at he
        rcases he with he | he
        · exact .inr (List.mem_singleton.mp he)
        · exact (i3 e he).symm
  have main : ∀ sched : List Meanwhile, sched.length = m → (∀ s ∈ sched, s.before.length + s.within.length ≤ 1) →
      (∀ e ∈ stored sched, e = x ∨ e = y) → (queryAll hash (filled hash n [y, x]) sched).2.1 = false →
      ∃ sched : List Meanwhile, sched.length = m ∧ (∀ s ∈ sched, s.before.length + s.within.length ≤ 1) ∧
      (∀ e ∈ stored sched, e = x ∨ e = y) ∧ (queryAll hash (filled hash n [y, x]) sched).2.1 = false ∧
      (queryAll hash (filled hash n [y, x]) sched).1.length = m :=
    fun s h1 h2 h3 h4 => ⟨s, h1, h2, h3, h4, by rw [← h1]; exact walk_len _ _ _ h4⟩
  match m, main with
  | 0, main => exact main [] rfl (fun s hs => by cases hs) (fun e he => by cases he) rfl
  | 1, main =>
    refine main [{}] rfl (fun s hs => ?_) (fun e he => by cases he) ?_
    · rw [List.mem_singleton] at hs; subst hs; exact Nat.zero_le 1
    · unfold Walk.queryAll
      rw [filled_two hash n x y (hn _) hs hne, walk]
      unfold turn
      simp only [List.foldl_nil, hf, single_find hash n x y (hn _)]
      rfl
  | m + 2, main =>
    obtain ⟨i1, i2, i3⟩ := hc m x y
    refine main ({} :: {} :: chase x y m) (by rw [List.length_cons, List.length_cons, i1]) ?_ ?_ ?_
    · intro s hs'
      rcases List.mem_cons.mp hs' with rfl | hs'
      · exact Nat.zero_le 1
      · rcases List.mem_cons.mp hs' with rfl | hs'
        · exact Nat.zero_le 1
        · exact i2 s hs'
    · intro e he
      exact i3 e he
    · unfold Walk.queryAll
      rw [filled_two hash n x y (hn _) hs hne, walk]
      unfold turn
      simp only [List.foldl_nil, hf, single_find hash n x y (hn _)]
      rw [walk]
      unfold turn
      simp only [List.foldl_nil, single_next hash n x y (hn _), h2]
      exact walk_chase hash n hn m x y hs hne

/-- The full claim fails: pruning a namespace leaves one of two metrics that share a bucket. -/
theorem c144_prune_violated (hash : MKey → Nat) (n : Nat) (hn : ∀ k, hash k < n) (x y : MKey × MVal) (v : MVal)
    (hs : hash y.1 = hash x.1) (hne : x.1 ≠ y.1) (hx : x.1 ≠ ⟨0, 0, 0⟩) (hy : y.1 ≠ ⟨0, 0, 0⟩) (ns : BitVec 32) :
    (prune hash (filled hash n [y, x]) ns [{}, ⟨[(y.1, v)], []⟩]).2.1 = true ∧
    y.1 ∈ keys (prune hash (filled hash n [y, x]) ns [{}, ⟨[(y.1, v)], []⟩]).2.2 := by
  obtain ⟨h1, h2, h3⟩ := c144_missed_violated hash n hn x y v hs hne hx hy
  obtain ⟨w1, -⟩ := walk_keeps [{}, ⟨[(y.1, v)], []⟩] (filled hash n [y, x]) ⟨0, 0, 0⟩ (wf_filled hn _)
  refine ⟨h2, ?_⟩
  unfold prune
  rw [keys_removes _ w1]
  refine ⟨h3, ?_⟩
  intro hm
  have hm := (List.mem_filter.mp hm).1
  unfold Walk.queryAll at h1
  rw [h1] at hm
  simp only [List.map_cons, List.map_nil, List.mem_singleton] at hm
  exact hne hm.symm

end Swoll.Props.Walk
