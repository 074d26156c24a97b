import Verif.Lemmas.PubSubDeliver
/-
C01-C05: publish and subscribe.
-/
namespace Swoll.Props.PubSub
open Swoll Swoll.PubSub Swoll.PubSub.Node Swoll.Spec.PubSub Swoll.Lemmas.PubSub

variable {D : Type} {srt : List Env → List Env}

theorem isPrefix_ways (a p : List Key) : ways (linear a) p = if p <+: a then 1 else 0 := by
  induction p generalizing a with
  | nil => simp [ways]
  | cons k ks ih =>
    cases a with
    | nil => simp [ways, linear, Trav.paths]
    | cons x xs =>
      unfold ways
      simp only [linear, Trav.paths]
      by_cases h : x = k
      · subst h; simp [ih, List.cons_prefix_cons]
      · have : ¬ k = x := fun e => h e.symm
        simp [h, List.cons_prefix_cons, this]

theorem delivers (hasher : Option (D → BitVec 64)) (o : Oracle) (ho : o.Valid) (s : PS) (L : Live) (act : List Sub)
    (cnt : Nat) (hok : RunOK s L act cnt) (d : D) (a : Trav) : DeliversUnsharded act a (publish hasher o s d a) := by
  refine ⟨?_, ?_⟩
  · intro x hx hsh
    rw [← hok.act] at hx
    obtain ⟨⟨p, m⟩, hm, rfl⟩ := List.mem_map.1 hx
    have hnode := (nodeAt_loc p hok.tree)
    obtain ⟨n, hn⟩ := Option.isSome_iff_exists.1 (hnode.2.2 (Or.inr ⟨_, hm, List.prefix_refl _⟩))
    obtain ⟨loc, _⟩ := hnode.1 n hn
    have huniq : ∀ e ∈ L, (e.2.token == m.token) = true → e = (p, m) := by
      intro e he ht
      exact ListX.inj_on_of_nodup_map hok.tokens he hm (by simpa using ht)
    have hfil := traverse_filter (hasher := hasher) ho (d := d) (fun t => t == m.token) p [] a hok.tree
      (fun e he ht => by rw [huniq e he ht]) hn
    have hmat : m ∈ at_ p L := mem_at.2 hm
    have hshm : m.shard = "" := hsh
    obtain ⟨info, hinfo⟩ : ∃ info, GoMap.get n.subs "" = some info := by
      cases hg : GoMap.get n.subs "" with
      | some i => exact ⟨i, rfl⟩
      | none =>
        have := loc.none_ _ hg
        have hmem : m ∈ (at_ p L).filter (fun m => m.shard = "") := by simp [hmat, hshm]
        rw [this] at hmem; cases hmem
    have hone : ∀ v, ((invokeNode hasher o d v n).filter (fun t => t == m.token)) = [m.token] := by
      intro v
      rw [invokeNode_group ho v loc hinfo _ (by
        intro m' hm' ht
        have := huniq (p, m') (mem_at.1 hm') ht
        injection this with _ this
        rw [this]; exact hshm)]
      unfold invokeGroup
      simp only [if_true]
      obtain ⟨hp, _⟩ := loc.some_ _ _ hinfo
      have hcount : (info.envs.map (·.token)).count m.token = 1 := by
        rw [(hp.map (·.token)).count_eq, List.map_map]
        apply List.Nodup.count (List.Nodup.sublist (List.Sublist.map _ List.filter_sublist) (tokens_at hok.tokens p)) |>.trans
        rw [if_pos]
        apply List.mem_map.2
        exact ⟨m, by simp [hmat, hshm], rfl⟩
      rw [List.filter_beq, hcount]; rfl
    unfold publish
    rw [List.count_eq_length_filter, show (fun x => x == (toSub (p, m)).token) = (fun t => t == m.token) from rfl, hfil]
    simp only [hone]
    rw [List.length_flatMap]
    simp only [List.length_singleton]
    rw [List.map_const', List.sum_replicate_nat, Nat.mul_one, length_visits]
    rfl
  · intro t ht
    obtain ⟨p, m, h1, h2, h3⟩ := traverse_mem ho hok.tree _ _ t ht
    exact ⟨toSub (p, m), by rw [← hok.act]; exact List.mem_map_of_mem h1, h2, h3⟩

/-- C01, for every traverser: after any history without repeated unsubscriber calls, which does
not crash, each active unsharded subscription is invoked once per way the traverser spells its
path, and nobody else is invoked. -/
theorem c01_traverser (hs : IsSort srt) (hist : List Op) (hu : UnsubOnce hist) :
    ∃ s, run srt PS.new hist = some s ∧ ∀ (hasher : Option (D → BitVec 64)) (o : Oracle), o.Valid →
      ∀ (d : D) (a : Trav), DeliversUnsharded (active hist) a (publish hasher o s d a) := by
  obtain ⟨s, L, hr, hok⟩ := runOK hs hist hu
  exact ⟨s, hr, fun hasher o ho d a => delivers hasher o ho s L _ _ hok d a⟩

/-- C01: publishing on a linear path invokes each active unsharded subscription whose path is a
prefix of it exactly once, other unsharded subscriptions not at all, and only active
subscriptions on a prefix. -/
theorem c01_publish (hs : IsSort srt) (hist : List Op) (hu : UnsubOnce hist) :
    ∃ s, run srt PS.new hist = some s ∧ ∀ (hasher : Option (D → BitVec 64)) (o : Oracle), o.Valid →
      ∀ (d : D) (path : List Key),
        (∀ x ∈ active hist, x.shard = "" →
          (publish hasher o s d (linear path)).count x.token = if x.path <+: path then 1 else 0) ∧
        (∀ t ∈ publish hasher o s d (linear path), ∃ x ∈ active hist, x.token = t ∧ x.path <+: path) := by
  obtain ⟨s, hr, h⟩ := c01_traverser (D := D) hs hist hu
  refine ⟨s, hr, fun hasher o ho d path => ?_⟩
  obtain ⟨h1, h2⟩ := h hasher o ho d (linear path)
  refine ⟨fun x hx hsh => by rw [h1 x hx hsh, isPrefix_ways], fun t ht => ?_⟩
  obtain ⟨x, hx, ht', hw⟩ := h2 t ht
  rw [isPrefix_ways] at hw
  refine ⟨x, hx, ht', ?_⟩
  apply Classical.byContradiction
  intro hn
  rw [if_neg hn] at hw
  omega

/-! ### C02, C03 -/

theorem group_map (L : Live) (p : List Key) (shard : String) : group (L.map toSub) p shard =
    ((at_ p L).filter (fun m => m.shard = shard)).map (fun m => toSub (p, m)) := by
  unfold group at_
  induction L with
  | nil => rfl
  | cons e L ih =>
    obtain ⟨q, mm⟩ := e
    by_cases hq : q = p
    · subst hq
      by_cases hs : mm.shard = shard
      · simpa [toSub, hs] using ih
      · simpa [toSub, hs] using ih
    · simpa [toSub, hq] using ih

/-- Common part of C02 and C03: the invocations of a group's members are one per visit, each of
them the member the index function picks. -/
theorem group_invocations (s : PS) (L : Live) (act : List Sub) (cnt : Nat) (hok : RunOK s L act cnt)
    (path : List Key) (shard : String) (hsh : shard ≠ "") (hne : group act path shard ≠ []) :
    ∃ envs : List Env, (envs.map (fun e => (e.token, e.dName))).Perm ((group act path shard).map (fun x => (x.token, x.dName))) ∧
      envs.Pairwise (fun a b => ¬ b.dName < a.dName) ∧
      ∀ (hasher : Option (D → BitVec 64)) (o : Oracle), o.Valid → ∀ (d : D) (a : Trav),
        (publish hasher o s d a).filter (fun t => t ∈ (group act path shard).map (·.token)) =
          (visits [] a path).flatMap (fun v =>
            ((envs[determineIdx hasher d envs.length (envs.any (fun e => e.dName ≠ "")) (o.pick v shard)]?).toList.map (·.token))) := by
  have hnode := nodeAt_loc path hok.tree
  obtain ⟨x, hx⟩ := List.exists_mem_of_ne_nil _ hne
  unfold group at hx
  rw [List.mem_filter] at hx
  have hxa := hx.1
  have hxp : x.path = path ∧ x.shard = shard := by simpa using hx.2
  rw [← hok.act] at hxa
  obtain ⟨⟨p, m⟩, hm, hxe⟩ := List.mem_map.1 hxa
  have hp : p = path := by rw [← hxp.1, ← hxe]; rfl
  have hms : m.shard = shard := by rw [← hxp.2, ← hxe]; rfl
  subst hp
  obtain ⟨n, hn⟩ := Option.isSome_iff_exists.1 (hnode.2.2 (Or.inr ⟨_, hm, List.prefix_refl _⟩))
  obtain ⟨loc, _⟩ := hnode.1 n hn
  obtain ⟨info, hinfo⟩ : ∃ info, GoMap.get n.subs shard = some info := by
    cases hg : GoMap.get n.subs shard with
    | some i => exact ⟨i, rfl⟩
    | none =>
      have := loc.none_ _ hg
      have hmem : m ∈ (at_ p L).filter (fun m => m.shard = shard) := by simp [mem_at.2 hm, hms]
      rw [this] at hmem; cases hmem
  obtain ⟨hperm, hnil, hsorted, hdet⟩ := loc.some_ _ _ hinfo
  have hgroup : group act p shard = ((at_ p L).filter (fun m => m.shard = shard)).map (fun m => toSub (p, m)) := by
    rw [← hok.act]; exact group_map L p shard
  have hmap : ∀ {β : Type} (f : Nat → String → β), ((group act p shard).map (fun x => f x.token x.dName)).Perm
      (info.envs.map (fun e => f e.token e.dName)) := by
    intro β f
    rw [hgroup, List.map_map]
    have h1 := hperm.map (fun e => f e.token e.dName)
    rw [List.map_map] at h1
    exact h1.symm
  refine ⟨info.envs, (hmap (fun t dn => (t, dn))).symm, hsorted, ?_⟩
  intro hasher o ho d a
  have htok := hmap (fun t _ => t)
  have hmemtok : ∀ t, t ∈ (group act p shard).map (·.token) ↔ t ∈ info.envs.map (·.token) :=
    fun t => htok.mem_iff
  have huniq : ∀ e ∈ L, e.2.token ∈ (group act p shard).map (·.token) → e.1 = p ∧ e.2.shard = shard := by
    intro e he ht
    obtain ⟨y, hy, hyt⟩ := List.mem_map.1 ht
    unfold group at hy
    rw [List.mem_filter] at hy
    have hy2 : y.path = p ∧ y.shard = shard := by simpa using hy.2
    have hya := hy.1
    rw [← hok.act] at hya
    obtain ⟨e', he', hye⟩ := List.mem_map.1 hya
    have hee : e = e' := ListX.inj_on_of_nodup_map hok.tokens he he' (by rw [← hyt, ← hye]; rfl)
    subst hee
    exact ⟨by rw [← hy2.1, ← hye]; rfl, by rw [← hy2.2, ← hye]; rfl⟩
  unfold publish
  rw [traverse_filter ho (fun t => decide (t ∈ (group act p shard).map (·.token))) p [] a hok.tree
    (fun e he ht => (huniq e he (by simpa using ht)).1) hn]
  apply congrArg (fun f => List.flatMap f (visits [] a p))
  funext v
  rw [invokeNode_group ho v loc hinfo _ (fun m' hm' ht => (huniq (p, m') (mem_at.1 hm') (by simpa using ht)).2)]
  unfold invokeGroup
  rw [if_neg hsh]
  have hdec : decide (info.detCount > 0) = info.envs.any (fun e => decide (e.dName ≠ "")) := by
    rw [hdet, Bool.eq_iff_iff, List.any_eq_true, decide_eq_true_eq]
    constructor
    · intro h
      have h : 0 < info.envs.countP (fun e => decide (e.dName ≠ "")) := by omega
      exact List.countP_pos_iff.1 h
    · intro h
      have := List.countP_pos_iff.2 h
      omega
  rw [hdec]
  dsimp only
  rw [List.filter_eq_self]
  intro t ht
  simp only [List.mem_map, Option.mem_toList] at ht
  obtain ⟨e, he, rfl⟩ := ht
  simp only [decide_eq_true_eq]
  rw [hmemtok]
  exact List.mem_map_of_mem (List.mem_of_getElem? he)

theorem determineIdx_lt (hasher : Option (D → BitVec 64)) (d : D) (l : Nat) (b : Bool) (draw : Nat) (h : 0 < l) :
    determineIdx hasher d l b draw < l := by
  unfold determineIdx
  split
  · split <;> exact Nat.mod_lt _ h
  · exact Nat.mod_lt _ h

/-- C02: of each non-empty shard group at a path, exactly one member is invoked per way the
traverser spells the path; for a linear publish that is once if the path is a prefix of the
published one and never otherwise. -/
theorem c02_shard_once (hs : IsSort srt) (hist : List Op) (hu : UnsubOnce hist) :
    ∃ s, run srt PS.new hist = some s ∧ ∀ (path : List Key) (shard : String), shard ≠ "" →
      group (active hist) path shard ≠ [] →
      ∀ (hasher : Option (D → BitVec 64)) (o : Oracle), o.Valid → ∀ (d : D),
        (∀ a : Trav, ((publish hasher o s d a).filter
          (fun t => t ∈ (group (active hist) path shard).map (·.token))).length = ways a path) ∧
        (∀ pub : List Key, ((publish hasher o s d (linear pub)).filter
          (fun t => t ∈ (group (active hist) path shard).map (·.token))).length = if path <+: pub then 1 else 0) := by
  obtain ⟨s, L, hr, hok⟩ := runOK hs hist hu
  refine ⟨s, hr, fun path shard hsh hne hasher o ho d => ?_⟩
  suffices H : ∀ a : Trav, ((publish hasher o s d a).filter
          (fun t => t ∈ (group (active hist) path shard).map (·.token))).length = ways a path by
    exact ⟨H, fun pub => by rw [H, isPrefix_ways]⟩
  intro a
  obtain ⟨envs, hperm, _, h⟩ := group_invocations (D := D) s L _ _ hok path shard hsh hne
  rw [h hasher o ho d a, List.length_flatMap]
  have hlen : 0 < envs.length := by
    have := hperm.length_eq
    rw [List.length_map, List.length_map] at this
    rw [this]
    exact List.length_pos_iff.2 hne
  have hone : ∀ v, ((envs[determineIdx hasher d envs.length (envs.any (fun e => e.dName ≠ "")) (o.pick v shard)]?).toList.map (·.token)).length = 1 := by
    intro v
    rw [List.getElem?_eq_getElem (determineIdx_lt hasher d envs.length _ _ hlen)]
    rfl
  simp only [hone]
  rw [List.map_const', List.sum_replicate_nat, Nat.mul_one, length_visits]

/-- C03: with a routing hash configured, if some member of a shard group has a routing name,
every publish of `d` goes to the member at position `hash d` modulo the group size in the
group's name-sorted member list, whatever the random source and map order do; hence two
publishes with the same hash reach the same member. -/
theorem c03_deterministic (hs : IsSort srt) (hist : List Op) (hu : UnsubOnce hist) :
    ∃ s, run srt PS.new hist = some s ∧ ∀ (path : List Key) (shard : String), shard ≠ "" →
      (∃ x ∈ group (active hist) path shard, x.dName ≠ "") →
      ∃ members : List (Nat × String),
        members.Perm ((group (active hist) path shard).map (fun x => (x.token, x.dName))) ∧
        members.Pairwise (fun a b => ¬ b.2 < a.2) ∧
        ∀ (h : D → BitVec 64) (o : Oracle), o.Valid → ∀ (d : D) (a : Trav),
          ∃ t dn, members[(h d).toNat % members.length]? = some (t, dn) ∧
            (publish (some h) o s d a).filter (fun t => t ∈ (group (active hist) path shard).map (·.token)) =
              List.replicate (ways a path) t := by
  obtain ⟨s, L, hr, hok⟩ := runOK hs hist hu
  refine ⟨s, hr, fun path shard hsh hdet => ?_⟩
  have hne : group (active hist) path shard ≠ [] := by
    obtain ⟨x, hx, _⟩ := hdet
    intro e; rw [e] at hx; cases hx
  obtain ⟨envs, hperm, hsorted, hpub⟩ := group_invocations (D := D) s L _ _ hok path shard hsh hne
  refine ⟨envs.map (fun e => (e.token, e.dName)), hperm, by rw [List.pairwise_map]; exact hsorted, ?_⟩
  intro h o ho d a
  have hlen : 0 < envs.length := by
    have := hperm.length_eq
    rw [List.length_map, List.length_map] at this
    rw [this]
    exact List.length_pos_iff.2 hne
  have hany : envs.any (fun e => decide (e.dName ≠ "")) = true := by
    obtain ⟨x, hx, hxd⟩ := hdet
    have hmem : (x.token, x.dName) ∈ envs.map (fun e => (e.token, e.dName)) :=
      hperm.mem_iff.2 (List.mem_map_of_mem hx)
    obtain ⟨e, he, hee⟩ := List.mem_map.1 hmem
    rw [List.any_eq_true]
    refine ⟨e, he, ?_⟩
    injection hee with _ h2
    simpa [h2] using hxd
  have hlt : (h d).toNat % envs.length < envs.length := Nat.mod_lt _ hlen
  refine ⟨(envs[(h d).toNat % envs.length]).token, (envs[(h d).toNat % envs.length]).dName, ?_, ?_⟩
  · rw [List.length_map, List.getElem?_map, List.getElem?_eq_getElem hlt]; rfl
  · rw [hpub (some h) o ho d a, hany]
    have hidx : ∀ v, determineIdx (some h) d envs.length true (o.pick v shard) = (h d).toNat % envs.length := fun v => rfl
    simp only [hidx, List.getElem?_eq_getElem hlt, Option.toList_some, List.map_cons, List.map_nil]
    rw [← length_visits path [] a]
    generalize visits [] a path = vs
    induction vs with
    | nil => rfl
    | cons v vs ih => rw [List.flatMap_cons, ih]; rfl

/-- C03: if the routing names of the members are pairwise different, the order, and so the
member chosen, is a function of the set of members alone. -/
theorem c03_order_unique (l l' : List (Nat × String)) (hp : l.Perm l')
    (hn : (l.map (·.2)).Nodup) (h : l.Pairwise (fun a b => ¬ b.2 < a.2)) (h' : l'.Pairwise (fun a b => ¬ b.2 < a.2)) :
    l = l' := by
  have hinj := @ListX.inj_on_of_nodup_map _ _ (fun x : Nat × String => x.2) l hn
  induction l generalizing l' with
  | nil => exact (hp.symm.eq_nil).symm
  | cons a l ih =>
    cases l' with
    | nil => exact absurd hp.eq_nil (by simp)
    | cons b l' =>
      have hab : a = b := by
        have hb : b ∈ a :: l := hp.mem_iff.2 (by simp)
        have ha : a ∈ b :: l' := hp.mem_iff.1 (by simp)
        apply hinj (by simp) hb
        rcases List.mem_cons.1 hb with e | hb
        · rw [e]
        rcases List.mem_cons.1 ha with e | ha
        · rw [e]
        have h1 := (List.pairwise_cons.1 h).1 b hb
        have h2 := (List.pairwise_cons.1 h').1 a ha
        exact String.le_antisymm (String.not_lt.1 h1) (String.not_lt.1 h2)
      subst hab
      congr 1
      rw [List.map_cons, List.nodup_cons] at hn
      exact ih l' (List.Perm.cons_inv hp) hn.2 (List.pairwise_cons.1 h).2 (List.pairwise_cons.1 h').2
        (fun hx hy => hinj (by simp [hx]) (by simp [hy]))

/-! ### C04 -/

/-- C04: cancelling removes one subscription from the active ones, and no other. -/
theorem c04_active_after_unsubscribe (hist : List Op) (h : Nat) :
    active (hist ++ [.unsubscribe h]) = (active hist).filter (fun x => x.token ≠ h) := by
  unfold active; rw [spec_snoc]; rfl

/-- C04: after any history a node exists exactly for the root and the prefixes of the paths of
active subscriptions, and no node other than the root is left without subscription and child. -/
theorem c04_pruned (hs : IsSort srt) (hist : List Op) (hu : UnsubOnce hist) :
    ∃ s, run srt PS.new hist = some s ∧
      (∀ p, (nodeAt s.root p).isSome ↔ p = [] ∨ ∃ x ∈ active hist, p <+: x.path) ∧
      (∀ p n, p ≠ [] → nodeAt s.root p = some n → n.children ≠ [] ∨ n.shards ≠ []) ∧
      (∀ p n, nodeAt s.root p = some n → (n.shards.length = 0 ↔ ∀ x ∈ active hist, x.path ≠ p)) := by
  obtain ⟨s, L, hr, hok⟩ := runOK hs hist hu
  have hex : ∀ (Q : List Key → Prop), (∃ x ∈ active hist, Q x.path) ↔ ∃ e ∈ L, Q e.1 := by
    intro Q
    rw [← hok.act]
    constructor
    · rintro ⟨x, hx, hq⟩
      obtain ⟨e, he, rfl⟩ := List.mem_map.1 hx
      exact ⟨e, he, hq⟩
    · rintro ⟨e, he, hq⟩
      exact ⟨toSub e, List.mem_map_of_mem he, hq⟩
  refine ⟨s, hr, fun p => ?_, fun p n hp hn => ?_, fun p n hn => ?_⟩
  · rw [(nodeAt_loc p hok.tree).2, hex (fun q => p <+: q)]
  · obtain ⟨h1, h2⟩ := nodeAt_loc p hok.tree
    have hsome := h2.1 (by rw [hn]; rfl)
    obtain ⟨e, he, hpre⟩ := hsome.resolve_left hp
    obtain ⟨_, hT⟩ := h1 n hn
    apply Classical.byContradiction
    intro hno
    have hc : n.children = [] := Classical.byContradiction (fun h => hno (Or.inl h))
    have hsh : n.shards = [] := Classical.byContradiction (fun h => hno (Or.inr h))
    have hnil := (empty_iff hT).1 (by simp [hc, hsh])
    have : (e.1.drop p.length, e.2) ∈ L.filterMap (fun e => if p <+: e.1 then some (e.1.drop p.length, e.2) else none) := by
      rw [List.mem_filterMap]
      exact ⟨e, he, by simp [hpre]⟩
    rw [hnil] at this; cases this
  · obtain ⟨loc, _⟩ := (nodeAt_loc p hok.tree).1 n hn
    constructor
    · intro h0 x hx e
      obtain ⟨e', he', hq⟩ := (hex (fun q => q = p)).1 ⟨x, hx, e⟩
      have hm : e'.2 ∈ at_ p L := mem_at.2 (by rw [← hq]; exact he')
      have := (loc.shards e'.2.id e'.2.shard).2 ⟨_, hm, rfl, rfl⟩
      rw [List.length_eq_zero_iff.1 h0] at this; cases this
    · intro hall
      cases hc : n.shards with
      | nil => rfl
      | cons e es =>
        exfalso
        obtain ⟨m, hm, _⟩ := (loc.shards e.1 e.2).1 (by rw [hc]; exact get_head e es)
        obtain ⟨x, hx, hxp⟩ := (hex (fun q => q = p)).2 ⟨(p, m), mem_at.1 hm, rfl⟩
        exact hall x hx hxp

/-- C04: when every subscription has been cancelled the tree is as new. -/
theorem c04_empty (hs : IsSort srt) (hist : List Op) (hu : UnsubOnce hist) (hnone : active hist = []) :
    ∃ s, run srt PS.new hist = some s ∧ s.root = Node.new := by
  obtain ⟨s, L, hr, hok⟩ := runOK hs hist hu
  refine ⟨s, hr, ?_⟩
  have hL : L = [] := by
    have := hok.act
    rw [hnone] at this
    exact List.map_eq_nil_iff.1 this
  subst hL
  obtain ⟨h1, h2⟩ := (empty_iff hok.tree).2 rfl
  obtain ⟨loc, _, _⟩ := hok.tree.cases'
  cases hroot : s.root with
  | mk ch sb shs =>
    rw [hroot] at h1 h2 loc
    have h1 : ch = [] := List.length_eq_zero_iff.1 h1
    have h2 : shs = [] := List.length_eq_zero_iff.1 h2
    have h3 : sb = [] := by
      cases sb with
      | nil => rfl
      | cons e es =>
        exfalso
        obtain ⟨hp, hn, _⟩ := loc.some_ e.1 e.2 (get_head e es)
        apply hn
        simpa [at_] using hp
    rw [h1, h2, h3]; rfl

/-! ### C05 -/

theorem cleanup_none_iff (id : Int) (path : List Key) : ∀ n : Node, cleanup id n path = none ↔ nodeAt n path = none := by
  induction path with
  | nil => intro n; simp [cleanup, nodeAt]
  | cons k ks ih =>
    intro n
    unfold cleanup nodeAt
    cases hg : GoMap.get n.children k with
    | none => simp
    | some c =>
      simp only [Option.bind_some]
      rw [← ih c]
      cases hc : cleanup id c ks with
      | none => simp
      | some c' =>
        simp only
        split <;> simp

/-- C05 violated, exactly when: calling an unsubscriber again panics if and only if its path is
not the root and no active subscription lies on or below the path. -/
theorem c05_second_call_panics (hs : IsSort srt) (hist : List Op) (hu : UnsubOnce hist) :
    ∃ s, run srt PS.new hist = some s ∧ ∀ h hd, s.handles[h]? = some hd →
      (∀ x ∈ active hist, x.token ≠ h) →
      (run srt PS.new (hist ++ [.unsubscribe h]) = none ↔
        hd.path ≠ [] ∧ ∀ x ∈ active hist, ¬ hd.path <+: x.path) := by
  obtain ⟨s, hr, hex, _, _⟩ := c04_pruned hs hist hu
  refine ⟨s, hr, fun h hd hh _ => ?_⟩
  rw [run_append, hr]
  simp only [Option.bind_some, run, step, hh]
  have h1 := hex hd.path
  constructor
  · intro hc
    have hn : nodeAt s.root hd.path = none := by
      rw [← cleanup_none_iff hd.id]
      cases hcl : cleanup hd.id s.root hd.path with
      | none => rfl
      | some n' => rw [hcl] at hc; cases hc
    rw [hn] at h1
    simp only [Option.isSome_none, Bool.false_eq_true, false_iff] at h1
    exact ⟨fun e => h1 (Or.inl e), fun x hx hp => h1 (Or.inr ⟨x, hx, hp⟩)⟩
  · rintro ⟨h2, h3⟩
    have hn : nodeAt s.root hd.path = none := by
      cases hcn : nodeAt s.root hd.path with
      | none => rfl
      | some n' =>
        rw [hcn] at h1
        rcases h1.1 rfl with e | ⟨x, hx, hp⟩
        · exact absurd e h2
        · exact absurd hp (h3 x hx)
    rw [(cleanup_none_iff hd.id _ _).2 hn]
    rfl

/-- Deleting an id a node does not know leaves an equivalent tree. -/
theorem treeOK_cleanup_unknown (id : Int) (path : List Key) : ∀ {n : Node} {L : Live}, TreeOK n L →
    (∀ m, (path, m) ∈ L → m.id ≠ id) → (nodeAt n path).isSome → (L = [] → path = []) →
    ∃ n', cleanup id n path = some n' ∧ TreeOK n' L := by
  induction path with
  | nil =>
    intro n L h hid _ _
    refine ⟨deleteSubscription n id, rfl, ?_⟩
    obtain ⟨loc, _, _⟩ := h.cases'
    have : GoMap.get n.shards id = none := by
      cases hg : GoMap.get n.shards id with
      | none => rfl
      | some sh =>
        obtain ⟨m, hm, h1, _⟩ := (loc.shards id sh).1 hg
        exact absurd h1 (hid m (mem_at.1 hm))
    unfold deleteSubscription
    rw [this]; exact h
  | cons k ks ih =>
    intro n L h hid hsome _
    obtain ⟨loc, kids, nokid⟩ := h.cases'
    unfold nodeAt at hsome
    cases hg : GoMap.get n.children k with
    | none => rw [hg] at hsome; cases hsome
    | some c =>
      rw [hg] at hsome
      obtain ⟨hne, hT⟩ := kids k c hg
      obtain ⟨c', hc', hok⟩ := ih hT (fun m hm => hid m (mem_sub.1 hm)) hsome (fun e => absurd e hne)
      have hnot : ¬ (c'.children.length = 0 ∧ c'.shards.length = 0) := fun e => hne ((empty_iff hok).1 e)
      refine ⟨Node.mk (GoMap.set n.children k c') n.subs n.shards, ?_, ?_⟩
      · simp only [cleanup, hg, hc', if_neg hnot]
      · refine TreeOK.mk' (locOK_children _ loc) ?_ ?_
        · intro k' c2 hg2
          change GoMap.get (GoMap.set n.children k c') k' = some c2 at hg2
          rw [GoMap.get_set] at hg2
          by_cases hk : k = k'
          · subst hk
            simp only [if_true] at hg2
            injection hg2 with hg2
            subst hg2
            exact ⟨hne, hok⟩
          · rw [if_neg hk] at hg2
            exact kids k' c2 hg2
        · intro k' hg2
          change GoMap.get (GoMap.set n.children k c') k' = none at hg2
          by_cases hk : k = k'
          · subst hk; simp at hg2
          · rw [GoMap.get_set_other _ _ hk] at hg2
            exact nokid k' hg2

/-- C05, the part that holds: a second call is harmless when the node is still there and no
active subscription at the same path was given the same internal id: the active subscriptions
receive what they did before. -/
theorem c05_harmless_partial (hs : IsSort srt) (hist : List Op) (hu : UnsubOnce hist) :
    ∃ s, run srt PS.new hist = some s ∧ ∀ h hd, s.handles[h]? = some hd →
      (∀ x ∈ active hist, x.token ≠ h) →
      (hd.path = [] ∨ ∃ x ∈ active hist, hd.path <+: x.path) →
      (∀ x ∈ active hist, x.path = hd.path → s.handles[x.token]? ≠ some hd) →
      ∃ s', run srt PS.new (hist ++ [.unsubscribe h]) = some s' ∧
        ∀ (hasher : Option (D → BitVec 64)) (o : Oracle), o.Valid → ∀ (d : D) (a : Trav),
          DeliversUnsharded (active hist) a (publish hasher o s' d a) := by
  obtain ⟨s, L, hr, hok⟩ := runOK hs hist hu
  refine ⟨s, hr, fun h hd hh _ hnode hids => ?_⟩
  have hsome : (nodeAt s.root hd.path).isSome := by
    rw [(nodeAt_loc hd.path hok.tree).2]
    rcases hnode with e | ⟨x, hx, hp⟩
    · exact Or.inl e
    · rw [← hok.act] at hx
      obtain ⟨e, he, rfl⟩ := List.mem_map.1 hx
      exact Or.inr ⟨e, he, hp⟩
  have hid : ∀ m, (hd.path, m) ∈ L → m.id ≠ hd.id := by
    intro m hm e
    have h1 := hok.handles _ _ hm
    apply hids (toSub (hd.path, m)) (by rw [← hok.act]; exact List.mem_map_of_mem hm) rfl
    show s.handles[m.token]? = some hd
    rw [h1, e]
  have hnil : L = [] → hd.path = [] := by
    intro e
    rcases hnode with e' | ⟨x, hx, _⟩
    · exact e'
    · rw [← hok.act, e] at hx; cases hx
  obtain ⟨n', hc, hT⟩ := treeOK_cleanup_unknown hd.id hd.path hok.tree hid hsome hnil
  refine ⟨{ s with root := n' }, ?_, ?_⟩
  · rw [run_append, hr]
    simp [run, step, hh, hc]
  · intro hasher o ho d a
    exact delivers hasher o ho { s with root := n' } L _ _ ⟨hT, hok.tokens, hok.handles, hok.act, hok.cnt⟩ d a

/-! ### non-vacuity and witnesses -/

/-- Insertion sort by name, what `sort.Sort` does for up to twelve elements. -/
def insertEnv (e : Env) : List Env → List Env
  | [] => [e]
  | x :: xs => if e.dName < x.dName then e :: x :: xs else x :: insertEnv e xs

def isort (l : List Env) : List Env := l.foldl (fun acc e => insertEnv e acc) []

theorem insertEnv_perm (e : Env) (l : List Env) : (insertEnv e l).Perm (e :: l) := by
  induction l with
  | nil => exact .refl _
  | cons x xs ih =>
    unfold insertEnv
    split
    · exact .refl _
    · exact (ih.cons x).trans (List.Perm.swap e x xs)

theorem insertEnv_sorted (e : Env) (l : List Env) (h : l.Pairwise (fun a b => ¬ b.dName < a.dName)) :
    (insertEnv e l).Pairwise (fun a b => ¬ b.dName < a.dName) := by
  induction l with
  | nil => simp [insertEnv]
  | cons x xs ih =>
    obtain ⟨h1, h2⟩ := List.pairwise_cons.1 h
    unfold insertEnv
    split
    · rename_i hlt
      rw [List.pairwise_cons]
      refine ⟨?_, h⟩
      intro b hb
      rcases List.mem_cons.1 hb with rfl | hb
      · exact String.lt_asymm hlt
      · intro hbe
        exact h1 b hb (String.lt_trans hbe hlt)
    · rename_i hge
      rw [List.pairwise_cons]
      refine ⟨?_, ih h2⟩
      intro b hb
      rcases List.mem_cons.1 ((insertEnv_perm e xs).mem_iff.1 hb) with rfl | hb
      · exact hge
      · exact h1 b hb

/-- The sorting assumption can be met. -/
theorem isort_isSort : IsSort isort := by
  intro l
  suffices H : ∀ (l acc : List Env), acc.Pairwise (fun a b => ¬ b.dName < a.dName) →
      (l.foldl (fun acc e => insertEnv e acc) acc).Perm (acc ++ l) ∧
      (l.foldl (fun acc e => insertEnv e acc) acc).Pairwise (fun a b => ¬ b.dName < a.dName) by
    have := H l [] List.Pairwise.nil
    simpa [isort] using this
  intro l
  induction l with
  | nil => intro acc h; simpa using h
  | cons e l ih =>
    intro acc h
    obtain ⟨h1, h2⟩ := ih (insertEnv e acc) (insertEnv_sorted e acc h)
    refine ⟨h1.trans ?_, h2⟩
    refine ((insertEnv_perm e acc).append_right l).trans ?_
    exact (List.perm_middle (l₁ := acc) (l₂ := l) (a := e)).symm

def demoOracle : Oracle := ⟨fun _ m => m, fun _ _ => 5⟩

example : demoOracle.Valid := fun _ _ => .refl _

/-- A history with three subscriptions, one of them cancelled. -/
def demoHist : List Op :=
  [.subscribe [1, 2] "" "" 10, .subscribe [1] "" "" 3, .subscribe [1, 2, 3] "g" "" 3, .unsubscribe 0]

example : UnsubOnce demoHist := by unfold UnsubOnce; decide +kernel
example : active demoHist = [⟨1, [1], "", ""⟩, ⟨2, [1, 2, 3], "g", ""⟩] := by decide +kernel

/-- C05 violated: subscribe, unsubscribe, unsubscribe again: panic. -/
theorem c05_double_unsubscribe_violated :
    (run isort PS.new [.subscribe [7] "" "" 1, .unsubscribe 0, .unsubscribe 0]).isNone = true := by decide +kernel

/-- C05 violated: the second call of an unsubscriber cancels another subscription when the
random source happened to give it the same id. -/
theorem c05_steals_subscription_violated :
    (run isort PS.new [.subscribe [] "" "" 1, .unsubscribe 0, .subscribe [] "" "" 1, .unsubscribe 0]).map
      (fun s => s.root.shards) = some [] := by decide +kernel

/-- C03 does not hold of a PubSub without a configured hash, which is what the hub uses
(hub.go:95): the choice then follows the random source. -/
theorem c03_default_hash_violated :
    ∃ o₁ o₂ : Oracle, o₁.Valid ∧ o₂.Valid ∧
      (run isort PS.new [.subscribe [] "g" "a" 1, .subscribe [] "g" "b" 2]).map
        (fun s => (invokeNode (D := Unit) none o₁ () [] s.root, invokeNode (D := Unit) none o₂ () [] s.root)) =
      some ([0], [1]) :=
  ⟨⟨fun _ m => m, fun _ _ => 0⟩, ⟨fun _ m => m, fun _ _ => 1⟩, fun _ _ => .refl _, fun _ _ => .refl _,
   by decide +kernel⟩

end Swoll.Props.PubSub
