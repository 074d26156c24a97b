import Verif.Spec.PubSub
import Verif.Util.ListX
/-
Invariant of the subscription tree and what a traversal invokes.
-/
namespace Swoll.Lemmas.PubSub
open Swoll Swoll.PubSub Swoll.PubSub.Node Swoll.Spec.PubSub

/-- What a node knows of a subscription. -/
structure Mem where
  token : Nat
  id : Int
  shard : String
  dName : String
  deriving DecidableEq

def Mem.env (m : Mem) : Env := ⟨m.token, m.id, m.dName⟩

abbrev Live := List (List Key × Mem)

/-- Subscriptions below child `k`. -/
def sub (k : Key) (L : Live) : Live :=
  L.filterMap (fun e => match e.1 with
    | [] => none
    | k' :: ks => if k' = k then some (ks, e.2) else none)

/-- Subscriptions at `p`. -/
def at_ (p : List Key) (L : Live) : List Mem := (L.filter (fun e => e.1 = p)).map (·.2)

theorem at_cons (k : Key) (ks : List Key) (L : Live) : at_ (k :: ks) L = at_ ks (sub k L) := by
  induction L with
  | nil => rfl
  | cons e L ih =>
    unfold at_ sub at *
    obtain ⟨p, m⟩ := e
    cases p with
    | nil => simpa using ih
    | cons k' ks' =>
      by_cases h : k' = k
      · subst h
        by_cases h2 : ks' = ks
        · subst h2; simpa using ih
        · simpa [h2] using ih
      · have : ¬ (k' = k ∧ ks' = ks) := fun e => h e.1
        simpa [h, this] using ih

theorem sub_append (k : Key) (L L' : Live) : sub k (L ++ L') = sub k L ++ sub k L' := by
  simp [sub]

theorem at_append (p : List Key) (L L' : Live) : at_ p (L ++ L') = at_ p L ++ at_ p L' := by
  simp [at_]

/-- Remove a token. -/
def drop (t : Nat) (L : Live) : Live := L.filter (fun e => e.2.token ≠ t)

theorem sub_drop (k : Key) (t : Nat) (L : Live) : sub k (drop t L) = drop t (sub k L) := by
  induction L with
  | nil => rfl
  | cons e L ih =>
    obtain ⟨p, m⟩ := e
    unfold sub drop at *
    by_cases h : m.token = t
    · simp only [List.filter_cons, h, ne_eq, not_true_eq_false, decide_false, Bool.false_eq_true, if_false]
      rw [ih]
      cases p with
      | nil => simp
      | cons k' ks => by_cases h2 : k' = k <;> simp [h2, h]
    · simp only [List.filter_cons, h, ne_eq, not_false_eq_true, decide_true, if_true]
      cases p with
      | nil => simpa using ih
      | cons k' ks => by_cases h2 : k' = k <;> simp [h2, h] <;> simpa using ih

theorem at_drop (p : List Key) (t : Nat) (L : Live) :
    at_ p (drop t L) = (at_ p L).filter (fun m => m.token ≠ t) := by
  unfold at_ drop
  rw [List.filter_map, List.filter_filter, List.filter_filter]
  congr 1
  apply List.filter_congr
  intro e _
  simp [Bool.and_comm]

theorem mem_sub {k : Key} {L : Live} {p : List Key} {m : Mem} : (p, m) ∈ sub k L ↔ (k :: p, m) ∈ L := by
  unfold sub
  rw [List.mem_filterMap]
  constructor
  · rintro ⟨⟨q, m'⟩, h1, h2⟩
    cases q with
    | nil => simp at h2
    | cons k' ks =>
      by_cases h : k' = k
      · simp [h] at h2; obtain ⟨rfl, rfl⟩ := h2; subst h; exact h1
      · simp [h] at h2
  · intro h
    exact ⟨_, h, by simp⟩

theorem mem_at {p : List Key} {L : Live} {m : Mem} : m ∈ at_ p L ↔ (p, m) ∈ L := by
  unfold at_
  simp only [List.mem_map, List.mem_filter, decide_eq_true_eq]
  constructor
  · rintro ⟨⟨q, m'⟩, ⟨h1, h2⟩, h3⟩
    simp only at h2 h3
    subst h2; subst h3; exact h1
  · intro h; exact ⟨_, ⟨h, rfl⟩, rfl⟩

/-- Local contents of a node that holds the subscriptions `M`. -/
structure LocOK (n : Node) (M : List Mem) : Prop where
  ids : (M.map (·.id)).Nodup
  shards : ∀ id sh, GoMap.get n.shards id = some sh ↔ ∃ m ∈ M, m.id = id ∧ m.shard = sh
  nodup : GoMap.NodupKeys n.subs
  some_ : ∀ sh info, GoMap.get n.subs sh = some info →
    info.envs.Perm ((M.filter (fun m => m.shard = sh)).map Mem.env) ∧ info.envs ≠ [] ∧
    info.envs.Pairwise (fun a b => ¬ b.dName < a.dName) ∧
    info.detCount = (info.envs.countP (fun e => e.dName ≠ "") : Nat)
  none_ : ∀ sh, GoMap.get n.subs sh = none → M.filter (fun m => m.shard = sh) = []

/-- A node that holds exactly the subscriptions `L`, in a pruned tree. -/
inductive TreeOK : Node → Live → Prop where
  | mk {n : Node} {L : Live} (loc : LocOK n (at_ [] L))
      (kids : ∀ k c, GoMap.get n.children k = some c → sub k L ≠ [])
      (rec : ∀ k c, GoMap.get n.children k = some c → TreeOK c (sub k L))
      (nokid : ∀ k, GoMap.get n.children k = none → sub k L = []) : TreeOK n L

theorem TreeOK.cases' {n : Node} {L : Live} (h : TreeOK n L) :
    LocOK n (at_ [] L) ∧
    (∀ k c, GoMap.get n.children k = some c → sub k L ≠ [] ∧ TreeOK c (sub k L)) ∧
    (∀ k, GoMap.get n.children k = none → sub k L = []) := by
  cases h with
  | mk loc kids rec nokid => exact ⟨loc, fun k c hg => ⟨kids k c hg, rec k c hg⟩, nokid⟩

theorem TreeOK.mk' {n : Node} {L : Live} (loc : LocOK n (at_ [] L))
    (kids : ∀ k c, GoMap.get n.children k = some c → sub k L ≠ [] ∧ TreeOK c (sub k L))
    (nokid : ∀ k, GoMap.get n.children k = none → sub k L = []) : TreeOK n L :=
  .mk loc (fun k c h => (kids k c h).1) (fun k c h => (kids k c h).2) nokid

theorem locOK_new : LocOK Node.new [] :=
  ⟨by simp, by intro id sh; simp [Node.new, Node.shards], GoMap.nodupKeys_nil,
   by intro sh info h; simp [Node.new, Node.subs] at h, by simp⟩

theorem treeOK_new : TreeOK Node.new [] :=
  .mk' locOK_new (by intro k c h; simp [Node.new, Node.children] at h) (by intro k _; rfl)

/-! ### fresh ids -/

theorem probe_ge (m : GoMap Int String) (fuel : Nat) : ∀ id, id ≤ probe m id fuel := by
  induction fuel with
  | zero => intro id; exact Int.le_refl _
  | succ f ih =>
    intro id
    unfold probe
    split
    · have := ih (id + 1); omega
    · exact Int.le_refl _

theorem has_del_ne (m : GoMap Int String) {i j : Int} (h : j ≠ i) : GoMap.has (GoMap.del m j) i = GoMap.has m i := by
  unfold GoMap.has; rw [GoMap.get_del_other _ h]

theorem probe_del (m : GoMap Int String) (j : Int) (fuel : Nat) :
    ∀ id, j < id → probe (GoMap.del m j) id fuel = probe m id fuel := by
  induction fuel with
  | zero => intro id _; rfl
  | succ f ih =>
    intro id h
    unfold probe
    rw [has_del_ne m (by omega), ih (id + 1) (by omega)]

theorem del_length_lt {m : GoMap Int String} {k : Int} (h : GoMap.has m k = true) : (GoMap.del m k).length < m.length := by
  have hk : k ∈ GoMap.keys m := by rw [GoMap.mem_keys_iff]; exact h
  unfold GoMap.del
  unfold GoMap.keys at hk
  obtain ⟨e, he, rfl⟩ := List.mem_map.1 hk
  rw [List.length_filter_lt_length_iff_exists]
  exact ⟨e, he, by simp⟩

theorem probe_fresh (fuel : Nat) : ∀ (m : GoMap Int String) (id : Int), m.length ≤ fuel →
    GoMap.get m (probe m id fuel) = none := by
  induction fuel with
  | zero =>
    intro m id h
    have : m = [] := List.length_eq_zero_iff.1 (by omega)
    subst this; rfl
  | succ f ih =>
    intro m id h
    unfold probe
    split
    · rename_i hh
      have hlt := del_length_lt hh
      have h1 := ih (GoMap.del m id) (id + 1) (by omega)
      rw [probe_del m id f (id + 1) (by omega)] at h1
      have hge := probe_ge m f (id + 1)
      rw [GoMap.get_del_other _ (by omega)] at h1
      exact h1
    · rename_i hh
      unfold GoMap.has at hh
      cases hg : GoMap.get m id with
      | none => rfl
      | some x => simp [hg] at hh

/-! ### subscribing -/

theorem locOK_add {srt : List Env → List Env} (hs : IsSort srt) {n : Node} {M : List Mem} (h : LocOK n M)
    (token : Nat) (shard dName : String) (draw : Int) :
    LocOK (addSubscription srt n token shard dName draw).1
      (M ++ [⟨token, (addSubscription srt n token shard dName draw).2, shard, dName⟩]) := by
  have hfresh := probe_fresh n.shards.length n.shards draw (Nat.le_refl _)
  unfold addSubscription
  dsimp only
  generalize hid : probe n.shards draw n.shards.length = id at hfresh ⊢
  have hnew : ∀ m ∈ M, m.id ≠ id := by
    intro m hm e
    have := (h.shards m.id m.shard).2 ⟨m, hm, rfl, rfl⟩
    rw [e, hfresh] at this; cases this
  constructor
  · rw [List.map_append, List.nodup_append]
    refine ⟨h.ids, by simp, ?_⟩
    intro a ha b hb
    obtain ⟨m, hm, rfl⟩ := List.mem_map.1 ha
    simp at hb
    subst hb
    exact hnew m hm
  · intro i sh
    show GoMap.get (GoMap.set n.shards id shard) i = some sh ↔ _
    rw [GoMap.get_set]
    by_cases hi : id = i
    · subst hi
      simp only [if_true]
      constructor
      · intro e; injection e with e; exact ⟨_, by simp; right; rfl, rfl, e⟩
      · rintro ⟨m, hm, h1, h2⟩
        rcases List.mem_append.1 hm with hm | hm
        · exact absurd h1 (hnew m hm)
        · simp at hm; subst hm; simp at h2; rw [h2]
    · rw [if_neg hi, h.shards]
      constructor
      · rintro ⟨m, hm, h1, h2⟩; exact ⟨m, by simp [hm], h1, h2⟩
      · rintro ⟨m, hm, h1, h2⟩
        rcases List.mem_append.1 hm with hm | hm
        · exact ⟨m, hm, h1, h2⟩
        · simp at hm; subst hm; exact absurd h1 hi
  · exact GoMap.nodupKeys_set h.nodup _ _
  · intro sh info hg
    change GoMap.get (GoMap.set n.subs shard _) sh = some info at hg
    rw [GoMap.get_set] at hg
    by_cases hsh : shard = sh
    · subst hsh
      simp only [if_true] at hg
      injection hg with hg
      obtain ⟨hp, hsorted⟩ := hs (((GoMap.get n.subs shard).getD ⟨0, []⟩).envs ++ [⟨token, id, dName⟩])
      have hperm : (((GoMap.get n.subs shard).getD ⟨0, []⟩).envs).Perm
          ((M.filter (fun m => m.shard = shard)).map Mem.env) ∧
          ((GoMap.get n.subs shard).getD ⟨0, []⟩).detCount =
            (((GoMap.get n.subs shard).getD ⟨0, []⟩).envs.countP (fun e => e.dName ≠ "") : Nat) := by
        cases hg0 : GoMap.get n.subs shard with
        | none => rw [h.none_ _ hg0]; exact ⟨.nil, rfl⟩
        | some i0 => obtain ⟨a, _, _, d⟩ := h.some_ _ _ hg0; exact ⟨a, d⟩
      subst hg
      refine ⟨?_, ?_, hsorted, ?_⟩
      · refine hp.trans ?_
        rw [List.filter_append, List.map_append]
        have : ([⟨token, id, shard, dName⟩] : List Mem).filter (fun m => m.shard = shard) = [⟨token, id, shard, dName⟩] := by simp
        rw [this]
        exact hperm.1.append_right _
      · intro e
        have := hp.length_eq
        rw [show srt _ = [] from e] at this
        simp at this
      · have hc := hp.countP_eq (fun e : Env => decide (e.dName ≠ ""))
        rw [List.countP_append] at hc
        show (if dName ≠ "" then _ else _) = (((srt _).countP _ : Nat) : Int)
        rw [hc, hperm.2]
        by_cases hd : dName = ""
        · simp [hd]
        · simp [hd]
    · rw [if_neg hsh] at hg
      obtain ⟨a, b⟩ := h.some_ _ _ hg
      refine ⟨?_, b⟩
      rw [List.filter_append]
      simpa [hsh] using a
  · intro sh hg
    change GoMap.get (GoMap.set n.subs shard _) sh = none at hg
    rw [GoMap.get_set] at hg
    by_cases hsh : shard = sh
    · simp [hsh] at hg
    · rw [if_neg hsh] at hg
      rw [List.filter_append, h.none_ _ hg]
      simp [hsh]

theorem locOK_children {n : Node} {M : List Mem} (c : List (Key × Node)) (h : LocOK n M) :
    LocOK (Node.mk c n.subs n.shards) M := ⟨h.ids, h.shards, h.nodup, h.some_, h.none_⟩

theorem treeOK_subscribe {srt : List Env → List Env} (hs : IsSort srt) (token : Nat) (shard dName : String)
    (draw : Int) (path : List Key) : ∀ {n : Node} {L : Live}, TreeOK n L →
    TreeOK (subscribeAt srt token shard dName draw n path).1
      (L ++ [(path, ⟨token, (subscribeAt srt token shard dName draw n path).2, shard, dName⟩)]) := by
  induction path with
  | nil =>
    intro n L h
    obtain ⟨loc, kids, nokid⟩ := h.cases'
    have hc : (addSubscription srt n token shard dName draw).1.children = n.children := rfl
    refine TreeOK.mk' ?_ ?_ ?_
    · rw [at_append]; exact locOK_add hs loc token shard dName draw
    · intro k c hg
      have := kids k c (by rw [← hc]; exact hg)
      rw [sub_append]
      simpa [sub] using this
    · intro k hg
      have := nokid k (by rw [← hc]; exact hg)
      rw [sub_append, this]; rfl
  | cons k ks ih =>
    intro n L h
    obtain ⟨loc, kids, nokid⟩ := h.cases'
    simp only [subscribeAt]
    have hchild : TreeOK ((GoMap.get n.children k).getD Node.new) (sub k L) := by
      cases hg : GoMap.get n.children k with
      | none => rw [nokid k hg]; exact treeOK_new
      | some c => exact (kids k c hg).2
    have h1 := ih hchild
    generalize subscribeAt srt token shard dName draw ((GoMap.get n.children k).getD Node.new) ks = r at h1
    refine TreeOK.mk' ?_ ?_ ?_
    · rw [at_append]
      have : at_ [] ([(k :: ks, ⟨token, r.2, shard, dName⟩)] : Live) = [] := by simp [at_]
      rw [this, List.append_nil]
      exact locOK_children _ loc
    · intro k' c hg
      change GoMap.get (GoMap.set n.children k r.1) k' = some c at hg
      rw [GoMap.get_set] at hg
      rw [sub_append]
      by_cases hk : k = k'
      · subst hk
        simp only [if_true] at hg
        injection hg with hg
        subst hg
        have : sub k ([(k :: ks, ⟨token, r.2, shard, dName⟩)] : Live) = [(ks, ⟨token, r.2, shard, dName⟩)] := by
          simp [sub]
        rw [this]
        exact ⟨by simp, h1⟩
      · rw [if_neg hk] at hg
        have : sub k' ([(k :: ks, ⟨token, r.2, shard, dName⟩)] : Live) = [] := by simp [sub, hk]
        rw [this, List.append_nil]
        exact kids k' c hg
    · intro k' hg
      change GoMap.get (GoMap.set n.children k r.1) k' = none at hg
      rw [GoMap.get_set] at hg
      by_cases hk : k = k'
      · simp [hk] at hg
      · rw [if_neg hk] at hg
        rw [sub_append, nokid k' hg]
        simp [sub, hk]

/-! ### unsubscribing -/

theorem dropEnv_spec (id : Int) : ∀ (es : List Env) (det : Int), (es.map (·.id)).Nodup →
    (dropEnv id es det).1 = es.filter (fun e => e.id ≠ id) ∧
    (dropEnv id es det).2 = det - ((es.filter (fun e => e.id = id)).countP (fun e => e.dName ≠ "") : Nat) := by
  intro es
  induction es with
  | nil => intro det _; simp [dropEnv]
  | cons e es ih =>
    intro det hn
    rw [List.map_cons, List.nodup_cons] at hn
    unfold dropEnv
    by_cases h : e.id = id
    · have hno : ∀ x ∈ es, ¬ x.id = id := by
        intro x hx hxe
        exact hn.1 (by rw [h, ← hxe]; exact List.mem_map_of_mem (f := (·.id)) hx)
      have h1 : es.filter (fun e => decide (e.id ≠ id)) = es := by
        rw [List.filter_eq_self]; intro x hx; simpa using hno x hx
      have h2 : es.filter (fun e => decide (e.id = id)) = [] := by
        rw [List.filter_eq_nil_iff]; intro x hx; simpa using hno x hx
      have h1' : es.filter (fun e => !decide (e.id = id)) = es := by
        rw [List.filter_eq_self]; intro x hx; simpa using hno x hx
      simp only [h, ne_eq, not_true_eq_false, if_false, List.filter_cons, decide_false,
        Bool.false_eq_true, decide_true, if_true, List.countP_cons]
      rw [h2]
      refine ⟨?_, ?_⟩
      · rw [← h1]; simp [h1']
      · by_cases hd : e.dName = "" <;> simp [hd]
    · obtain ⟨i1, i2⟩ := ih det hn.2
      simp only [h, ne_eq, not_false_eq_true, if_true, List.filter_cons, decide_true, decide_false,
        Bool.false_eq_true, if_false]
      exact ⟨by rw [i1], by rw [i2]⟩

theorem locOK_delete {n : Node} {M : List Mem} (h : LocOK n M) {m : Mem} (hm : m ∈ M) (ht : (M.map (·.token)).Nodup) :
    LocOK (deleteSubscription n m.id) (M.filter (fun x => x.token ≠ m.token)) ∧
      (deleteSubscription n m.id).children = n.children := by
  have hg := (h.shards m.id m.shard).2 ⟨m, hm, rfl, rfl⟩
  -- tokens and ids identify the same subscription
  have hiff : ∀ x ∈ M, x.token ≠ m.token ↔ x.id ≠ m.id := by
    intro x hx
    constructor
    · intro hne e
      apply hne
      have := (ListX.inj_on_of_nodup_map h.ids) hx hm e
      rw [this]
    · intro hne e
      apply hne
      have := (ListX.inj_on_of_nodup_map ht) hx hm e
      rw [this]
  have hMf : M.filter (fun x => x.token ≠ m.token) = M.filter (fun x => x.id ≠ m.id) := by
    apply List.filter_congr
    intro x hx
    exact decide_eq_decide.2 (hiff x hx)
  rw [hMf]
  obtain ⟨info, hinfo⟩ : ∃ info, GoMap.get n.subs m.shard = some info := by
    cases hgs : GoMap.get n.subs m.shard with
    | some i => exact ⟨i, rfl⟩
    | none =>
      have := h.none_ _ hgs
      have hmem : m ∈ M.filter (fun x => x.shard = m.shard) := by simp [hm]
      rw [this] at hmem; cases hmem
  obtain ⟨hperm, hne, hsort, hdet⟩ := h.some_ _ _ hinfo
  have hidn : (info.envs.map (·.id)).Nodup := by
    have h1 := hperm.map (·.id)
    rw [h1.nodup_iff, List.map_map]
    have : ((fun x : Env => x.id) ∘ Mem.env) = (fun m : Mem => m.id) := rfl
    rw [this]
    exact List.Nodup.sublist (List.Sublist.map _ List.filter_sublist) h.ids
  obtain ⟨d1, d2⟩ := dropEnv_spec m.id info.envs info.detCount hidn
  have hpermf : (info.envs.filter (fun e => e.id ≠ m.id)).Perm
      (((M.filter (fun x => x.id ≠ m.id)).filter (fun x => x.shard = m.shard)).map Mem.env) := by
    have h1 := hperm.filter (fun e => decide (e.id ≠ m.id))
    refine h1.trans ?_
    rw [List.filter_map, List.filter_filter, List.filter_filter]
    apply List.Perm.of_eq
    congr 1
    apply List.filter_congr
    intro x _
    by_cases hx1 : x.id = m.id <;> by_cases hx2 : x.shard = m.shard <;> simp [Mem.env, hx1, hx2]
  have hdet2 : (dropEnv m.id info.envs info.detCount).2 =
      ((info.envs.filter (fun e => e.id ≠ m.id)).countP (fun e => e.dName ≠ "") : Nat) := by
    rw [d2, hdet]
    have hsplit := List.countP_eq_countP_filter_add info.envs (fun e => decide (e.dName ≠ "")) (fun e => decide (e.id = m.id))
    have : (fun e : Env => !decide (e.id = m.id)) = (fun e => decide (e.id ≠ m.id)) := by
      funext e; by_cases hh : e.id = m.id <;> simp [hh]
    rw [this] at hsplit
    omega
  -- the other shards
  have hother : ∀ sh, sh ≠ m.shard →
      (M.filter (fun x => x.id ≠ m.id)).filter (fun x => x.shard = sh) = M.filter (fun x => x.shard = sh) := by
    intro sh hsh
    rw [List.filter_filter]
    apply List.filter_congr
    intro x hx
    by_cases hx2 : x.shard = sh
    · have : x.id ≠ m.id := by
        intro e
        have := (ListX.inj_on_of_nodup_map h.ids) hx hm e
        apply hsh; rw [← hx2, this]
      simp [hx2, this]
    · simp [hx2]
  have hids : ((M.filter (fun x => x.id ≠ m.id)).map (·.id)).Nodup :=
    List.Nodup.sublist (List.Sublist.map _ List.filter_sublist) h.ids
  have hshards : ∀ id sh, GoMap.get (GoMap.del n.shards m.id) id = some sh ↔
      ∃ x ∈ M.filter (fun x => x.id ≠ m.id), x.id = id ∧ x.shard = sh := by
    intro id sh
    rw [GoMap.get_del]
    by_cases hi : m.id = id
    · subst hi
      simp only [if_true]
      constructor
      · intro h; cases h
      · rintro ⟨x, hx, h1, _⟩
        simp at hx
        exact absurd h1 hx.2
    · rw [if_neg hi, h.shards]
      constructor
      · rintro ⟨x, hx, h1, h2⟩
        refine ⟨x, ?_, h1, h2⟩
        simp [hx]; intro e; exact hi (by rw [← e, h1])
      · rintro ⟨x, hx, h1, h2⟩
        exact ⟨x, (List.mem_filter.1 hx).1, h1, h2⟩
  have hdel : deleteSubscription n m.id =
      if info.envs.filter (fun e => e.id ≠ m.id) = [] then
        Node.mk n.children (GoMap.del n.subs m.shard) (GoMap.del n.shards m.id)
      else Node.mk n.children (GoMap.set n.subs m.shard
        ⟨(dropEnv m.id info.envs info.detCount).2, info.envs.filter (fun e => e.id ≠ m.id)⟩)
        (GoMap.del n.shards m.id) := by
    simp only [deleteSubscription, hg, hinfo, Option.getD_some, d1]
  rw [hdel]
  split
  · rename_i hemp
    refine ⟨⟨hids, hshards, GoMap.nodupKeys_del h.nodup _, ?_, ?_⟩, rfl⟩
    · intro sh i hgi
      change GoMap.get (GoMap.del n.subs m.shard) sh = some i at hgi
      rw [GoMap.get_del] at hgi
      by_cases hsh : m.shard = sh
      · simp [hsh] at hgi
      · rw [if_neg hsh] at hgi
        rw [hother sh (fun e => hsh e.symm)]
        exact h.some_ _ _ hgi
    · intro sh hgi
      change GoMap.get (GoMap.del n.subs m.shard) sh = none at hgi
      by_cases hsh : m.shard = sh
      · subst hsh
        rw [hemp] at hpermf
        have := hpermf.symm.eq_nil
        simpa using this
      · rw [GoMap.get_del_other _ hsh] at hgi
        rw [hother sh (fun e => hsh e.symm)]
        exact h.none_ _ hgi
  · rename_i hemp
    refine ⟨⟨hids, hshards, GoMap.nodupKeys_set h.nodup _ _, ?_, ?_⟩, rfl⟩
    · intro sh i hgi
      change GoMap.get (GoMap.set n.subs m.shard _) sh = some i at hgi
      rw [GoMap.get_set] at hgi
      by_cases hsh : m.shard = sh
      · subst hsh
        simp only [if_true] at hgi
        injection hgi with hgi
        subst hgi
        exact ⟨hpermf, hemp, List.Pairwise.filter _ hsort, hdet2⟩
      · rw [if_neg hsh] at hgi
        rw [hother sh (fun e => hsh e.symm)]
        exact h.some_ _ _ hgi
    · intro sh hgi
      change GoMap.get (GoMap.set n.subs m.shard _) sh = none at hgi
      by_cases hsh : m.shard = sh
      · subst hsh; simp at hgi
      · rw [GoMap.get_set_other _ _ hsh] at hgi
        rw [hother sh (fun e => hsh e.symm)]
        exact h.none_ _ hgi

theorem get_head {K V : Type} [DecidableEq K] (e : K × V) (m : GoMap K V) : GoMap.get (e :: m) e.1 = some e.2 := by
  rw [GoMap.get_cons]; simp

theorem live_nil {L : Live} (h1 : at_ [] L = []) (h2 : ∀ k, sub k L = []) : L = [] := by
  cases L with
  | nil => rfl
  | cons e L =>
    exfalso
    obtain ⟨p, m⟩ := e
    cases p with
    | nil =>
      have : m ∈ at_ [] ((([] : List Key), m) :: L) := mem_at.2 (by simp)
      rw [h1] at this; cases this
    | cons k ks =>
      have : (ks, m) ∈ sub k ((k :: ks, m) :: L) := mem_sub.2 (by simp)
      rw [h2 k] at this; cases this

/-- The test that prunes a node is right. -/
theorem empty_iff {n : Node} {L : Live} (h : TreeOK n L) :
    (n.children.length = 0 ∧ n.shards.length = 0) ↔ L = [] := by
  obtain ⟨loc, kids, nokid⟩ := h.cases'
  constructor
  · rintro ⟨h1, h2⟩
    have h1 : n.children = [] := List.length_eq_zero_iff.1 h1
    have h2 : n.shards = [] := List.length_eq_zero_iff.1 h2
    apply live_nil
    · apply List.eq_nil_iff_forall_not_mem.2
      intro m hm
      have := (loc.shards m.id m.shard).2 ⟨m, hm, rfl, rfl⟩
      rw [h2] at this; cases this
    · intro k; apply nokid; rw [h1]; rfl
  · intro hL
    subst hL
    constructor
    · cases hc : n.children with
      | nil => rfl
      | cons e es =>
        exact absurd rfl (kids e.1 e.2 (by rw [hc]; exact get_head e es)).1
    · cases hc : n.shards with
      | nil => rfl
      | cons e es =>
        obtain ⟨m, hm, _⟩ := (loc.shards e.1 e.2).1 (by rw [hc]; exact get_head e es)
        cases hm

theorem tokens_sub {L : Live} (h : (L.map (·.2.token)).Nodup) (k : Key) : ((sub k L).map (·.2.token)).Nodup := by
  have hs : ((sub k L).map (·.2.token)).Sublist (L.map (·.2.token)) := by
    clear h
    induction L with
    | nil => simp [sub]
    | cons e L ih =>
      obtain ⟨p, m⟩ := e
      unfold sub at *
      cases p with
      | nil => simpa using ih.trans (List.sublist_cons_self _ _)
      | cons k' ks =>
        by_cases hk : k' = k
        · simpa [hk] using ih
        · simpa [hk] using ih.trans (List.sublist_cons_self _ _)
  exact List.Nodup.sublist hs h

theorem tokens_at {L : Live} (h : (L.map (·.2.token)).Nodup) (p : List Key) : ((at_ p L).map (·.token)).Nodup := by
  unfold at_
  rw [List.map_map]
  exact List.Nodup.sublist (List.Sublist.map _ List.filter_sublist) h

theorem treeOK_cleanup (m : Mem) (path : List Key) : ∀ {n : Node} {L : Live}, TreeOK n L →
    (L.map (·.2.token)).Nodup → (path, m) ∈ L →
    ∃ n', cleanup m.id n path = some n' ∧ TreeOK n' (drop m.token L) := by
  induction path with
  | nil =>
    intro n L h ht hm
    obtain ⟨loc, kids, nokid⟩ := h.cases'
    obtain ⟨h1, h2⟩ := locOK_delete loc (mem_at.2 hm) (tokens_at ht [])
    refine ⟨_, rfl, ?_⟩
    have hsub : ∀ k, sub k (drop m.token L) = sub k L := by
      intro k
      rw [sub_drop]
      unfold drop
      rw [List.filter_eq_self]
      intro e he
      obtain ⟨p, x⟩ := e
      have he' := mem_sub.1 he
      have : x.token ≠ m.token := by
        intro e
        have := (ListX.inj_on_of_nodup_map ht) he' hm e
        cases this
      simpa using this
    refine TreeOK.mk' ?_ ?_ ?_
    · rw [at_drop]; exact h1
    · intro k c hg
      rw [h2] at hg
      rw [hsub]; exact kids k c hg
    · intro k hg
      rw [h2] at hg
      rw [hsub]; exact nokid k hg
  | cons k ks ih =>
    intro n L h ht hm
    obtain ⟨loc, kids, nokid⟩ := h.cases'
    have hms : (ks, m) ∈ sub k L := mem_sub.2 hm
    cases hg : GoMap.get n.children k with
    | none => rw [nokid k hg] at hms; cases hms
    | some c =>
      obtain ⟨c', hc', hok⟩ := ih (kids k c hg).2 (tokens_sub ht k) hms
      have hat : at_ [] (drop m.token L) = at_ [] L := by
        rw [at_drop, List.filter_eq_self]
        intro x hx
        have hx' := mem_at.1 hx
        have : x.token ≠ m.token := by
          intro e
          have := (ListX.inj_on_of_nodup_map ht) hx' hm e
          cases this
        simpa using this
      have hoth : ∀ k', k ≠ k' → sub k' (drop m.token L) = sub k' L := by
        intro k' hk
        rw [sub_drop]
        unfold drop
        rw [List.filter_eq_self]
        intro e he
        obtain ⟨p, x⟩ := e
        have he' := mem_sub.1 he
        have : x.token ≠ m.token := by
          intro e
          have := (ListX.inj_on_of_nodup_map ht) he' hm e
          injection this with this _
          injection this with this _
          exact hk this.symm
        simpa using this
      simp only [cleanup, hg, hc']
      by_cases hemp : c'.children.length = 0 ∧ c'.shards.length = 0
      · rw [if_pos hemp]
        refine ⟨_, rfl, ?_⟩
        have hnil := (empty_iff hok).1 hemp
        refine TreeOK.mk' ?_ ?_ ?_
        · rw [hat]; exact locOK_children _ loc
        · intro k' c2 hg2
          change GoMap.get (GoMap.del n.children k) k' = some c2 at hg2
          rw [GoMap.get_del] at hg2
          by_cases hk : k = k'
          · simp [hk] at hg2
          · rw [if_neg hk] at hg2
            rw [hoth k' hk]; exact kids k' c2 hg2
        · intro k' hg2
          change GoMap.get (GoMap.del n.children k) k' = none at hg2
          by_cases hk : k = k'
          · subst hk; rw [sub_drop]; exact hnil
          · rw [GoMap.get_del_other _ hk] at hg2
            rw [hoth k' hk]; exact nokid k' hg2
      · rw [if_neg hemp]
        refine ⟨_, rfl, ?_⟩
        refine TreeOK.mk' ?_ ?_ ?_
        · rw [hat]; exact locOK_children _ loc
        · intro k' c2 hg2
          change GoMap.get (GoMap.set n.children k c') k' = some c2 at hg2
          rw [GoMap.get_set] at hg2
          by_cases hk : k = k'
          · subst hk
            simp only [if_true] at hg2
            injection hg2 with hg2
            subst hg2
            rw [sub_drop]
            exact ⟨fun e => hemp ((empty_iff hok).2 e), hok⟩
          · rw [if_neg hk] at hg2
            rw [hoth k' hk]; exact kids k' c2 hg2
        · intro k' hg2
          change GoMap.get (GoMap.set n.children k c') k' = none at hg2
          by_cases hk : k = k'
          · subst hk; simp at hg2
          · rw [GoMap.get_set_other _ _ hk] at hg2
            rw [hoth k' hk]; exact nokid k' hg2

end Swoll.Lemmas.PubSub
