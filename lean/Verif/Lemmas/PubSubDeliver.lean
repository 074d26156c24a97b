import Verif.Lemmas.PubSub
/-
What a traversal of an intact tree invokes, and the invariant along histories.
-/
namespace Swoll.Lemmas.PubSub
open Swoll Swoll.PubSub Swoll.PubSub.Node Swoll.Spec.PubSub

variable {D : Type}

theorem filter_flatMap_single {K V : Type} [DecidableEq K] {l m : GoMap K V} (hp : l.Perm m)
    (hn : GoMap.NodupKeys m) {k : K} {v : V} (hg : GoMap.get m k = some v) (f : K × V → List Nat)
    (P : Nat → Bool) (h0 : ∀ e ∈ m, e.1 ≠ k → (f e).filter P = []) :
    (l.flatMap f).filter P = (f (k, v)).filter P := by
  have hn' : GoMap.NodupKeys l := GoMap.keys_perm_nodup hp.symm hn
  have hg' : GoMap.get l k = some v := by rw [GoMap.get_perm hp hn']; exact hg
  have h0' : ∀ e ∈ l, e.1 ≠ k → (f e).filter P = [] := fun e he => h0 e (hp.mem_iff.1 he)
  clear hp hn hg h0 m
  induction l with
  | nil => cases hg'
  | cons e l ih =>
    rw [List.flatMap_cons, List.filter_append]
    rw [GoMap.get_cons] at hg'
    unfold GoMap.NodupKeys at hn'
    rw [GoMap.keys_cons, List.nodup_cons] at hn'
    by_cases he : e.1 = k
    · rw [if_pos he] at hg'
      injection hg' with hg'
      have hee : e = (k, v) := by cases e; simp_all
      have hrest : (l.flatMap f).filter P = [] := by
        rw [List.filter_flatMap, List.flatMap_eq_nil_iff]
        intro x hx
        apply h0' x (by simp [hx])
        intro e2
        apply hn'.1
        rw [he, ← e2]
        exact List.mem_map_of_mem (f := (·.1)) hx
      rw [hrest, hee, List.append_nil]
    · rw [if_neg he] at hg'
      rw [h0' e (by simp) he, List.nil_append]
      exact ih hn'.2 hg' (fun x hx => h0' x (by simp [hx]))

theorem invokeGroup_sub (hasher : Option (D → BitVec 64)) (d : D) (draw : Nat) (sh : String) (si : Info) (t : Nat)
    (h : t ∈ invokeGroup hasher d draw sh si) : t ∈ si.envs.map (·.token) := by
  unfold invokeGroup at h
  split at h
  · exact h
  · simp only [List.mem_map, Option.mem_toList] at h
    obtain ⟨e, he, rfl⟩ := h
    exact List.mem_map_of_mem (List.mem_of_getElem? he)

theorem loc_mem {n : Node} {M : List Mem} (h : LocOK n M) {sh : String} {info : Info}
    (hg : (sh, info) ∈ n.subs) {t : Nat} (ht : t ∈ info.envs.map (·.token)) :
    ∃ m ∈ M, m.token = t ∧ m.shard = sh := by
  have hg' := GoMap.get_of_mem h.nodup hg
  obtain ⟨hp, _⟩ := h.some_ _ _ hg'
  have := (hp.map (·.token)).mem_iff.1 ht
  rw [List.map_map] at this
  obtain ⟨m, hm, rfl⟩ := List.mem_map.1 this
  rw [List.mem_filter] at hm
  exact ⟨m, hm.1, rfl, by simpa using hm.2⟩

theorem invokeNode_mem {hasher : Option (D → BitVec 64)} {o : Oracle} (ho : o.Valid) {d : D} {v : List Nat}
    {n : Node} {M : List Mem} (h : LocOK n M) {t : Nat} (ht : t ∈ invokeNode hasher o d v n) :
    ∃ m ∈ M, m.token = t := by
  unfold invokeNode at ht
  obtain ⟨e, he, hte⟩ := List.mem_flatMap.1 ht
  have he' := (ho v n.subs).mem_iff.1 he
  obtain ⟨m, hm, h1, _⟩ := loc_mem h (sh := e.1) (info := e.2) he' (invokeGroup_sub _ _ _ _ _ _ hte)
  exact ⟨m, hm, h1⟩

theorem invokeNode_group {hasher : Option (D → BitVec 64)} {o : Oracle} (ho : o.Valid) {d : D} (v : List Nat)
    {n : Node} {M : List Mem} (h : LocOK n M) {sh : String} {info : Info}
    (hg : GoMap.get n.subs sh = some info) (P : Nat → Bool) (hP : ∀ m ∈ M, P m.token = true → m.shard = sh) :
    (invokeNode hasher o d v n).filter P = (invokeGroup hasher d (o.pick v sh) sh info).filter P := by
  unfold invokeNode
  apply filter_flatMap_single (ho v n.subs) h.nodup hg
    (fun e => invokeGroup hasher d (o.pick v e.1) e.1 e.2) P
  intro e he hne
  rw [List.filter_eq_nil_iff]
  intro t ht hpt
  obtain ⟨m, hm, h1, h2⟩ := loc_mem h (sh := e.1) (info := e.2) he (invokeGroup_sub _ _ _ _ _ _ ht)
  apply hne
  rw [← h2]
  exact hP m hm (by rw [h1]; exact hpt)

theorem traverse_eq (hasher : Option (D → BitVec 64)) (o : Oracle) (d : D) (v : List Nat) (a : Trav) (n : Node) :
    traverse hasher o d v a n = invokeNode hasher o d v n ++
      a.paths.zipIdx.flatMap (fun p =>
        match GoMap.get n.children p.1.1 with
        | none => []
        | some c => traverse hasher o d (v ++ [p.2]) (p.1.2.getD a) c) := by
  rw [traverse]
  congr 1
  apply congrArg (fun f => List.flatMap f a.paths.zipIdx)
  funext p
  split <;> simp_all

theorem le_sum_of_mem {l : List Nat} {x : Nat} (h : x ∈ l) : x ≤ l.sum := by
  induction l with
  | nil => cases h
  | cons y l ih =>
    rw [List.sum_cons]
    rcases List.mem_cons.1 h with rfl | h
    · omega
    · have := ih h; omega

theorem traverse_mem {hasher : Option (D → BitVec 64)} {o : Oracle} (ho : o.Valid) {d : D} {n : Node} {L : Live}
    (h : TreeOK n L) : ∀ (v : List Nat) (a : Trav) (t : Nat), t ∈ traverse hasher o d v a n →
      ∃ p m, (p, m) ∈ L ∧ m.token = t ∧ 0 < ways a p := by
  induction h with
  | @mk n L loc kids rec nokid ih =>
    intro v a t ht
    rw [traverse_eq, List.mem_append] at ht
    rcases ht with ht | ht
    · obtain ⟨m, hm, h1⟩ := invokeNode_mem ho loc ht
      exact ⟨[], m, mem_at.1 hm, h1, by simp [ways]⟩
    · obtain ⟨p, hp, hpt⟩ := List.mem_flatMap.1 ht
      cases hg : GoMap.get n.children p.1.1 with
      | none => rw [hg] at hpt; cases hpt
      | some c =>
        rw [hg] at hpt
        obtain ⟨q, m, h1, h2, h3⟩ := ih p.1.1 c hg _ _ t hpt
        refine ⟨p.1.1 :: q, m, mem_sub.1 h1, h2, ?_⟩
        have hmem : p.1 ∈ a.paths := List.fst_mem_of_mem_zipIdx hp
        unfold ways
        have : ways (p.1.2.getD a) q ∈ (a.paths.filter (fun x => x.1 = p.1.1)).map (fun x => ways (x.2.getD a) q) := by
          apply List.mem_map_of_mem (f := fun x : Key × Option Trav => ways (x.2.getD a) q)
          rw [List.mem_filter]; exact ⟨hmem, by simp⟩
        have := le_sum_of_mem this
        omega

/-- The visits of the node at a path. -/
def visits : List Nat → Trav → List Key → List (List Nat)
  | v, _, [] => [v]
  | v, a, k :: ks => a.paths.zipIdx.flatMap (fun p =>
      if p.1.1 = k then visits (v ++ [p.2]) (p.1.2.getD a) ks else [])

theorem sum_filter_map (l : List (Key × Option Trav)) (k : Key) (g : Key × Option Trav → Nat) :
    (l.map (fun p => if p.1 = k then g p else 0)).sum = ((l.filter (fun p => p.1 = k)).map g).sum := by
  induction l with
  | nil => rfl
  | cons e l ih =>
    by_cases h : e.1 = k
    · simp [h, ih]
    · simp [h, ih]

theorem length_visits (p : List Key) : ∀ (v : List Nat) (a : Trav), (visits v a p).length = ways a p := by
  induction p with
  | nil => intro v a; simp [visits, ways]
  | cons k ks ih =>
    intro v a
    unfold visits ways
    rw [List.length_flatMap, ← sum_filter_map]
    congr 1
    have : (fun p : (Key × Option Trav) × Nat =>
        (if p.1.1 = k then visits (v ++ [p.2]) (p.1.2.getD a) ks else []).length) =
        (fun p : Key × Option Trav => if p.1 = k then ways (p.2.getD a) ks else 0) ∘ Prod.fst := by
      funext p
      simp only [Function.comp]
      split
      · exact ih _ _
      · rfl
    rw [this, ← List.map_map, List.zipIdx_map_fst]

theorem traverse_filter {hasher : Option (D → BitVec 64)} {o : Oracle} (ho : o.Valid) {d : D} (P : Nat → Bool)
    (p : List Key) : ∀ {n m : Node} {L : Live} (v : List Nat) (a : Trav), TreeOK n L →
      (∀ e ∈ L, P e.2.token = true → e.1 = p) → nodeAt n p = some m →
      (traverse hasher o d v a n).filter P =
        (visits v a p).flatMap (fun v' => (invokeNode hasher o d v' m).filter P) := by
  induction p with
  | nil =>
    intro n m L v a h hP hm
    obtain ⟨loc, kids, nokid⟩ := h.cases'
    injection hm with hm
    subst hm
    rw [traverse_eq, List.filter_append]
    have : (a.paths.zipIdx.flatMap (fun p =>
        match GoMap.get n.children p.1.1 with
        | none => []
        | some c => traverse hasher o d (v ++ [p.2]) (p.1.2.getD a) c)).filter P = [] := by
      rw [List.filter_flatMap, List.flatMap_eq_nil_iff]
      intro x hx
      rw [List.filter_eq_nil_iff]
      intro t ht hpt
      cases hg : GoMap.get n.children x.1.1 with
      | none => rw [hg] at ht; cases ht
      | some c =>
        rw [hg] at ht
        obtain ⟨q, m, h1, h2, _⟩ := traverse_mem ho (kids _ c hg).2 _ _ t ht
        have := hP _ (mem_sub.1 h1) (by rw [h2]; exact hpt)
        cases this
    rw [this, List.append_nil]
    simp [visits]
  | cons k ks ih =>
    intro n m L v a h hP hm
    obtain ⟨loc, kids, nokid⟩ := h.cases'
    rw [traverse_eq, List.filter_append]
    have h0 : (invokeNode hasher o d v n).filter P = [] := by
      rw [List.filter_eq_nil_iff]
      intro t ht hpt
      obtain ⟨m', hm', h1⟩ := invokeNode_mem ho loc ht
      have := hP _ (mem_at.1 hm') (by rw [h1]; exact hpt)
      cases this
    rw [h0, List.nil_append, List.filter_flatMap]
    unfold visits
    rw [List.flatMap_assoc]
    apply congrArg (fun f => List.flatMap f a.paths.zipIdx)
    funext x
    simp only [nodeAt] at hm
    by_cases hk : x.1.1 = k
    · rw [if_pos hk]
      cases hg : GoMap.get n.children k with
      | none => rw [hg] at hm; cases hm
      | some c =>
        rw [hg] at hm
        rw [hk, hg]
        refine ih _ _ (kids k c hg).2 ?_ hm
        intro e he hpe
        obtain ⟨q, m'⟩ := e
        have := hP _ (mem_sub.1 he) hpe
        injection this
    · rw [if_neg hk]
      simp only [List.flatMap_nil]
      rw [List.filter_eq_nil_iff]
      intro t ht hpt
      cases hg : GoMap.get n.children x.1.1 with
      | none => rw [hg] at ht; cases ht
      | some c =>
        rw [hg] at ht
        obtain ⟨q, m', h1, h2, _⟩ := traverse_mem ho (kids _ c hg).2 _ _ t ht
        have := hP _ (mem_sub.1 h1) (by rw [h2]; exact hpt)
        injection this with this _
        exact hk this

/-- Every live path has a node holding the subscriptions at that path. -/
theorem nodeAt_loc (p : List Key) : ∀ {n : Node} {L : Live}, TreeOK n L →
    (∀ m, nodeAt n p = some m → LocOK m (at_ p L) ∧ TreeOK m (L.filterMap (fun e =>
      if p <+: e.1 then some (e.1.drop p.length, e.2) else none))) ∧
    ((nodeAt n p).isSome ↔ p = [] ∨ ∃ e ∈ L, p <+: e.1) := by
  induction p with
  | nil =>
    intro n L h
    have : L.filterMap (fun e => if ([] : List Key) <+: e.1 then some (e.1.drop ([] : List Key).length, e.2) else none) = L := by
      simp
    rw [this]
    obtain ⟨loc, kids, nokid⟩ := h.cases'
    refine ⟨?_, by simp [nodeAt]⟩
    intro m hm
    injection hm with hm
    subst hm
    exact ⟨loc, h⟩
  | cons k ks ih =>
    intro n L h
    obtain ⟨loc, kids, nokid⟩ := h.cases'
    have hconv : L.filterMap (fun e => if (k :: ks) <+: e.1 then some (e.1.drop (k :: ks).length, e.2) else none) =
        (sub k L).filterMap (fun e => if ks <+: e.1 then some (e.1.drop ks.length, e.2) else none) := by
      unfold sub
      rw [List.filterMap_filterMap]
      apply congrArg (fun f => List.filterMap f L)
      funext e
      obtain ⟨q, m⟩ := e
      cases q with
      | nil => simp
      | cons k' q =>
        by_cases hk : k = k'
        · subst hk
          simp [List.cons_prefix_cons]
        · have hk' : ¬ k' = k := fun e => hk e.symm
          simp [List.cons_prefix_cons, hk, hk']
    rw [hconv, at_cons]
    unfold nodeAt
    cases hg : GoMap.get n.children k with
    | none =>
      have hnil := nokid k hg
      refine ⟨(fun m hm => nomatch hm), ?_⟩
      constructor
      · intro hh; cases hh
      · rintro (hh | ⟨⟨q, m⟩, he, hpre⟩)
        · cases hh
        · exfalso
          obtain ⟨r, hr⟩ := hpre
          simp only at hr
          subst hr
          have : (ks ++ r, m) ∈ sub k L := mem_sub.2 he
          rw [hnil] at this; cases this
    | some c =>
      obtain ⟨h1, h2⟩ := ih (kids k c hg).2
      refine ⟨h1, ?_⟩
      show (nodeAt c ks).isSome ↔ _
      rw [h2]
      constructor
      · rintro (hh | ⟨⟨q, m⟩, he, hpre⟩)
        · subst hh
          right
          obtain ⟨e, he⟩ := List.exists_mem_of_ne_nil _ (kids k c hg).1
          obtain ⟨q, m⟩ := e
          exact ⟨_, mem_sub.1 he, by simp [List.cons_prefix_cons]⟩
        · right
          exact ⟨_, mem_sub.1 he, by simpa [List.cons_prefix_cons] using hpre⟩
      · rintro (hh | ⟨⟨q, m⟩, he, hpre⟩)
        · cases hh
        · right
          obtain ⟨r, hr⟩ := hpre
          simp only at hr
          subst hr
          exact ⟨_, mem_sub.2 he, by simp⟩

/-! ### histories -/

def toSub (e : List Key × Mem) : Sub := ⟨e.2.token, e.1, e.2.shard, e.2.dName⟩

/-- The state reached by a history and the subscriptions in it. -/
structure RunOK (s : PS) (L : Live) (act : List Sub) (cnt : Nat) : Prop where
  tree : TreeOK s.root L
  tokens : (L.map (·.2.token)).Nodup
  handles : ∀ p m, (p, m) ∈ L → s.handles[m.token]? = some ⟨m.id, p⟩
  act : L.map toSub = act
  cnt : s.handles.length = cnt

theorem run_append (srt : List Env → List Env) (l : List Op) : ∀ (s : PS) (l' : List Op),
    run srt s (l ++ l') = (run srt s l).bind (fun s' => run srt s' l') := by
  induction l with
  | nil => intro s l'; rfl
  | cons o l ih =>
    intro s l'
    simp only [List.cons_append, run]
    cases step srt s o with
    | none => rfl
    | some s1 => exact ih s1 l'

theorem spec_snoc (l : List Op) (o : Op) :
    (l ++ [o]).foldl specStep (0, []) = specStep (l.foldl specStep (0, [])) o := by
  rw [List.foldl_append]; rfl

theorem active_lt (l : List Op) : ∀ x ∈ active l, x.token < subscribed l := by
  induction l using ListX.snoc_induction with
  | h0 => intro x hx; cases hx
  | h1 l o ih =>
    unfold active subscribed at *
    rw [spec_snoc]
    cases o with
    | subscribe p sh dn dr =>
      intro x hx
      simp only [specStep] at hx ⊢
      rcases List.mem_append.1 hx with hx | hx
      · have := ih x hx; omega
      · simp at hx; subst hx; simp
    | unsubscribe h =>
      intro x hx
      simp only [specStep] at hx ⊢
      exact ih x (List.mem_filter.1 hx).1

/-- A subscription made and no longer active was cancelled. -/
theorem cancelled_of_inactive (l : List Op) (h : Nat) (h1 : h < subscribed l)
    (h2 : ∀ x ∈ active l, x.token ≠ h) : h ∈ l.filterMap cancels := by
  induction l using ListX.snoc_induction with
  | h0 => simp [subscribed] at h1
  | h1 l o ih =>
    unfold active subscribed at *
    rw [spec_snoc] at h1 h2
    rw [List.filterMap_append, List.mem_append]
    cases o with
    | subscribe p sh dn dr =>
      simp only [specStep] at h1 h2
      left
      by_cases hh : h = (l.foldl specStep (0, [])).1
      · exact absurd hh.symm (h2 ⟨(l.foldl specStep (0, [])).1, p, sh, dn⟩ (by simp))
      · exact ih (by omega) (fun x hx => h2 x (by simp [hx]))
    | unsubscribe k =>
      simp only [specStep] at h1 h2
      by_cases hk : h = k
      · right; simp [cancels, hk]
      · left
        refine ih h1 (fun x hx e => ?_)
        exact h2 x (List.mem_filter.2 ⟨hx, by simpa [e] using hk⟩) e

theorem runOK {srt : List Env → List Env} (hs : IsSort srt) (l : List Op) (hu : UnsubOnce l) :
    ∃ s L, run srt PS.new l = some s ∧ RunOK s L (active l) (subscribed l) := by
  induction l using ListX.snoc_induction with
  | h0 => exact ⟨PS.new, [], rfl, treeOK_new, by simp, by simp, rfl, rfl⟩
  | h1 l o ih =>
    have hul : UnsubOnce l := by
      unfold UnsubOnce at *
      rw [List.filterMap_append, List.nodup_append] at hu
      exact hu.1
    obtain ⟨s, L, hrun, hok⟩ := ih hul
    rw [run_append, hrun]
    show ∃ s' L', (step srt s o).bind (fun s' => run srt s' []) = some s' ∧ _
    have hcnt := hok.cnt
    have hact := hok.act
    have hlt := active_lt l
    unfold active subscribed at *
    rw [spec_snoc]
    cases o with
    | subscribe p sh dn dr =>
      refine ⟨_, _, rfl, treeOK_subscribe hs s.handles.length sh dn dr p hok.tree, ?_, ?_, ?_, ?_⟩
      · rw [List.map_append, List.nodup_append]
        refine ⟨hok.tokens, by simp, ?_⟩
        intro a ha b hb
        obtain ⟨e, he, rfl⟩ := List.mem_map.1 ha
        simp at hb
        subst hb
        have hx : toSub e ∈ (l.foldl specStep (0, [])).2 := by rw [← hact]; exact List.mem_map_of_mem he
        have := hlt _ hx
        rw [hcnt]
        unfold toSub at this
        simp only at this
        omega
      · intro q m hm
        rcases List.mem_append.1 hm with hm | hm
        · rw [List.getElem?_append_left]
          · exact hok.handles q m hm
          · have hx : toSub (q, m) ∈ (l.foldl specStep (0, [])).2 := by rw [← hact]; exact List.mem_map_of_mem hm
            have := hlt _ hx
            unfold toSub at this
            simp only at this
            omega
        · simp at hm
          obtain ⟨rfl, rfl⟩ := hm
          simp
      · simp only [specStep, List.map_append, hact]
        simp [toSub, hcnt]
      · simp [specStep, hcnt]
    | unsubscribe h =>
      cases hh : s.handles[h]? with
      | none =>
        refine ⟨s, L, by simp [step, hh, run], hok.tree, hok.tokens, hok.handles, ?_, hcnt⟩
        simp only [specStep]
        rw [hact, eq_comm, List.filter_eq_self]
        intro x hx
        have h1 := hlt x hx
        rw [List.getElem?_eq_none_iff] at hh
        have : x.token ≠ h := by omega
        simpa using this
      | some hd =>
        have hex : ∃ x ∈ (l.foldl specStep (0, [])).2, x.token = h := by
          apply Classical.byContradiction
          intro hno
          have hc := cancelled_of_inactive l h (by
              unfold subscribed; rw [← hcnt]
              exact (List.getElem?_eq_some_iff.1 hh).1)
            (fun x hx e => hno ⟨x, hx, e⟩)
          unfold UnsubOnce at hu
          rw [List.filterMap_append, List.nodup_append] at hu
          exact hu.2.2 h hc h (by simp [cancels]) rfl
        obtain ⟨x, hx, hxt⟩ := hex
        rw [← hact] at hx
        obtain ⟨⟨q, m⟩, hm, rfl⟩ := List.mem_map.1 hx
        have hmt : m.token = h := hxt
        have hhd := hok.handles q m hm
        rw [hmt, hh] at hhd
        injection hhd with hhd
        subst hhd
        obtain ⟨n', hn', htree⟩ := treeOK_cleanup m q hok.tree hok.tokens hm
        rw [hmt] at htree
        refine ⟨{ s with root := n' }, drop h L, by simp [step, hh, hn', run], htree, ?_, ?_, ?_, hcnt⟩
        · exact List.Nodup.sublist (List.Sublist.map _ List.filter_sublist) hok.tokens
        · intro q' m' hm'
          exact hok.handles q' m' (List.mem_filter.1 hm').1
        · simp only [specStep, ← hact]
          unfold drop
          rw [List.filter_map]
          rfl

end Swoll.Lemmas.PubSub
