import Verif.Lemmas.HubEvent
import Verif.Lemmas.Filter
import Verif.Lemmas.FilterEval
namespace Swoll.Lemmas.Hub
open Swoll.Filter hiding Op step run
open Swoll Swoll.Syscalls Swoll.Hub Swoll.Spec.Hub
open Swoll.Spec.Filter (scope Abs Sample)
open Swoll.Lemmas.Filter (sysKey Rel newRule_sys rel_step rel_empty sysKey_inj)

theorem ruleKey_eq (tbl : Syscalls) (ns nr : Int) :
    ruleKey tbl ns nr = (lookup tbl (.int nr)).map (fun s => sysKey (scope ns) (BitVec.ofNat 32 s.nr)) := by
  unfold ruleKey
  congr 1
  funext s
  by_cases h : ns = -1 <;> simp [h, scope, sysKey]

theorem get_removeSyscall (tbl : Syscalls) (m : KMaps) (ns nr : Int) (k : FilterKey) :
    GoMap.get (removeSyscall tbl m (.int nr) ns).1.filter k =
      if ruleKey tbl ns nr = some k then none else GoMap.get m.filter k := by
  rw [ruleKey_eq]
  unfold removeSyscall
  rw [newRule_sys]
  cases hl : lookup tbl (.int nr) with
  | none => simp
  | some s =>
    simp only [Option.map_some, Option.some.injEq]
    unfold delRule
    by_cases hh : GoMap.has m.filter (sysKey (scope ns) (BitVec.ofNat 32 s.nr)) = true
    · simp only [hh, if_true, GoMap.get_del]
    · simp only [hh]
      by_cases hk : sysKey (scope ns) (BitVec.ofNat 32 s.nr) = k
      · subst hk
        unfold GoMap.has at hh
        simpa using hh
      · simp [hk]

theorem config_removeSyscall (tbl : Syscalls) (m : KMaps) (ns nr : Int) :
    (removeSyscall tbl m (.int nr) ns).1.config = m.config := by
  unfold removeSyscall
  rw [newRule_sys]
  cases hl : lookup tbl (.int nr) with
  | none => simp
  | some s =>
    simp only [Option.map_some]
    unfold delRule
    split <;> rfl

theorem withoutAll_sub (L R : List Ctx) : ∀ c ∈ withoutAll R L, c ∈ R := by
  rw [withoutAll_eq]; intro c hc; exact (List.mem_filter.1 hc).1

theorem pairOf_nil_of {R R' : List Ctx} (h : ∀ c ∈ R', c ∈ R) {ns nr : Int} (hn : pairOf R ns nr = []) :
    pairOf R' ns nr = [] := by
  unfold pairOf at *
  rw [List.filter_eq_nil_iff] at *
  intro c hc; exact hn c (h c hc)

/-- Which kernel entries the deletion loop removes. -/
theorem mapsAfter_get (tbl : Syscalls) (k : FilterKey) : ∀ (L R : List Ctx) (m : KMaps),
    (R.map (·.cid)).Nodup → (L.map (·.cid)).Nodup → (∀ c ∈ L, c ∈ R) →
    ((∃ c ∈ L, pairOf (withoutAll R L) c.ns c.nr = [] ∧ ruleKey tbl c.ns c.nr = some k) →
      GoMap.get (mapsAfter tbl m R L).filter k = none) ∧
    ((¬ ∃ c ∈ L, pairOf (withoutAll R L) c.ns c.nr = [] ∧ ruleKey tbl c.ns c.nr = some k) →
      GoMap.get (mapsAfter tbl m R L).filter k = GoMap.get m.filter k) := by
  intro L
  induction L with
  | nil => intro R m _ _ _; exact ⟨by simp, fun _ => rfl⟩
  | cons c cs ih =>
    intro R m hR hL hsub
    rw [List.map_cons, List.nodup_cons] at hL
    have hnd' : ((without R c).map (·.cid)).Nodup :=
      List.Nodup.sublist ((List.filter_sublist).map _) hR
    have hmem' : ∀ x ∈ cs, x ∈ without R c := by
      intro x hx
      unfold without
      rw [List.mem_filter]
      refine ⟨hsub x (by simp [hx]), ?_⟩
      have : x.cid ≠ c.cid := fun e => hL.1 (List.mem_map.2 ⟨x, hx, e⟩)
      simpa using this
    -- a later context of the pair whenever the pair goes and `c` is not the last
    have hlater : pairOf (withoutAll R (c :: cs)) c.ns c.nr = [] → pairOf (without R c) c.ns c.nr ≠ [] →
        ∃ c' ∈ cs, c'.ns = c.ns ∧ c'.nr = c.nr := by
      intro h0 h1
      obtain ⟨x, hx⟩ := List.exists_mem_of_ne_nil _ h1
      unfold pairOf at hx
      rw [List.mem_filter] at hx
      have hx2 : x.ns = c.ns ∧ x.nr = c.nr := by simpa using hx.2
      have hxn : x ∉ withoutAll (without R c) cs := by
        intro hin
        have : x ∈ pairOf (withoutAll R (c :: cs)) c.ns c.nr := by
          unfold pairOf; rw [List.mem_filter]; exact ⟨hin, by simpa using hx2⟩
        rw [h0] at this; simp at this
      rw [withoutAll_eq, List.mem_filter] at hxn
      have : ¬ ∀ c' ∈ cs, x.cid ≠ c'.cid := by
        intro hall; exact hxn ⟨hx.1, by simpa using hall⟩
      obtain ⟨c', hc', hcid⟩ : ∃ c' ∈ cs, x.cid = c'.cid := by
        apply Classical.byContradiction
        intro hno; exact this (fun c' hc' he => hno ⟨c', hc', he⟩)
      have := eq_of_cid hnd' hx.1 (hmem' c' hc') hcid
      subst this
      exact ⟨x, hc', hx2⟩
    obtain ⟨i1, i2⟩ := ih (without R c)
      (if pairOf (without R c) c.ns c.nr = [] then (removeSyscall tbl m (.int c.nr) c.ns).1 else m) hnd' hL.2 hmem'
    show (_ → GoMap.get (mapsAfter tbl _ (without R c) cs).filter k = none) ∧
      (_ → GoMap.get (mapsAfter tbl _ (without R c) cs).filter k = _)
    constructor
    · rintro ⟨x, hx, hp, hk⟩
      by_cases hex : ∃ y ∈ cs, pairOf (withoutAll (without R c) cs) y.ns y.nr = [] ∧ ruleKey tbl y.ns y.nr = some k
      · exact i1 hex
      · rw [i2 hex]
        rw [List.mem_cons] at hx
        rcases hx with rfl | hx
        · by_cases hlast : pairOf (without R x) x.ns x.nr = []
          · rw [if_pos hlast, get_removeSyscall, if_pos hk]
          · obtain ⟨y, hy, e1, e2⟩ := hlater hp hlast
            exact absurd ⟨y, hy, by rw [e1, e2]; exact hp, by rw [e1, e2]; exact hk⟩ hex
        · exact absurd ⟨x, hx, hp, hk⟩ hex
    · intro hno
      rw [i2 (fun ⟨y, hy, a, b⟩ => hno ⟨y, by simp [hy], a, b⟩)]
      by_cases hlast : pairOf (without R c) c.ns c.nr = []
      · rw [if_pos hlast, get_removeSyscall]
        have hp : pairOf (withoutAll R (c :: cs)) c.ns c.nr = [] :=
          pairOf_nil_of (withoutAll_sub cs (without R c)) hlast
        rw [if_neg (fun hk => hno ⟨c, by simp, hp, hk⟩)]
      · rw [if_neg hlast]

theorem mapsAfter_config (tbl : Syscalls) : ∀ (L R : List Ctx) (m : KMaps),
    (mapsAfter tbl m R L).config = m.config := by
  intro L
  induction L with
  | nil => intro R m; rfl
  | cons c cs ih =>
    intro R m
    show (mapsAfter tbl _ (without R c) cs).config = _
    rw [ih]
    split
    · exact config_removeSyscall tbl m _ _
    · rfl

/-- The deletion loop is a sequence of filter removals. -/
theorem mapsAfter_rel (tbl : Syscalls) : ∀ (L R : List Ctx) (m : KMaps) (a : Abs), Rel m a →
    ∃ a', Rel (mapsAfter tbl m R L) a' ∧ a'.enabled = a.enabled ∧
      (∀ sc nr, a'.sys sc nr = a.sys sc nr ∨ a'.sys sc nr = none) := by
  intro L
  induction L with
  | nil => intro R m a h; exact ⟨a, h, rfl, fun _ _ => Or.inl rfl⟩
  | cons c cs ih =>
    intro R m a h
    show ∃ a', Rel (mapsAfter tbl _ (without R c) cs) a' ∧ _
    split
    · have h1 := (rel_step tbl h (.removeSyscall (.int c.nr) c.ns)).1
      obtain ⟨a', r, e, k⟩ := ih (without R c) _ _ h1
      refine ⟨a', r, ?_, ?_⟩
      · rw [e]
        show (Abs.step tbl a (.removeSyscall (.int c.nr) c.ns)).1.enabled = _
        unfold Abs.step
        dsimp only
        split <;> rfl
      · intro sc nr
        rcases k sc nr with k | k
        · rw [k]
          show (Abs.step tbl a (.removeSyscall (.int c.nr) c.ns)).1.sys sc nr = _ ∨ _
          unfold Abs.step
          dsimp only
          split
          · exact Or.inl rfl
          · unfold Abs.setRule
            dsimp only
            split
            · exact Or.inr rfl
            · exact Or.inl rfl
        · exact Or.inr k
    · exact ih (without R c) _ _ h

/-! ### Kernel coverage -/

/-- The maps are those of some rule set, the filter is switched on, and it has an unsampled
(when `z`) rule stored under `(sc, nr)`. -/
def Covered (m : KMaps) (sc : Option (BitVec 32)) (nr : BitVec 32) (z : Bool) : Prop :=
  ∃ a, Rel m a ∧ a.enabled = true ∧ ∃ s, a.sys sc nr = some s ∧ (z = true → s.rate = 0)

/-- Operation on the kernel filter that neither removes nor samples the rule. -/
def Harmless (tbl : Syscalls) (sc : Option (BitVec 32)) (nr : BitVec 32) (z : Bool) : Filter.Op → Prop
  | .removeSyscall k ns => ∀ s, lookup tbl k = some s → ¬ (scope ns = sc ∧ BitVec.ofNat 32 s.nr = nr)
  | .addSampled k ns _ _ => z = true → ∀ s, lookup tbl k = some s → ¬ (scope ns = sc ∧ BitVec.ofNat 32 s.nr = nr)
  | _ => True

theorem covered_filter (tbl : Syscalls) {m : KMaps} {sc : Option (BitVec 32)} {nr : BitVec 32} {z : Bool}
    (h : Covered m sc nr z) (o : Filter.Op) (ho : Harmless tbl sc nr z o) :
    Covered (Filter.step tbl m o).1 sc nr z := by
  obtain ⟨a, hr, hen, s, hs, hz⟩ := h
  refine ⟨_, (rel_step tbl hr o).1, ?_⟩
  cases o with
  | addSyscall k ns f =>
    unfold Abs.step
    dsimp only
    split
    · exact ⟨hen, s, hs, hz⟩
    · split
      · exact ⟨hen, s, hs, hz⟩
      · refine ⟨hen, ?_⟩
        unfold Abs.setRule
        dsimp only
        split
        · exact ⟨_, rfl, fun _ => rfl⟩
        · exact ⟨s, hs, hz⟩
  | addSampled k ns rate f =>
    unfold Abs.step
    dsimp only
    split
    · exact ⟨hen, s, hs, hz⟩
    · rename_i sc' hl
      split
      · exact ⟨hen, s, hs, hz⟩
      · refine ⟨hen, ?_⟩
        unfold Abs.setRule
        dsimp only
        split
        · rename_i hx
          exact ⟨_, rfl, fun hzt => absurd ⟨hx.1.symm, hx.2.symm⟩ (ho hzt sc' hl)⟩
        · exact ⟨s, hs, hz⟩
  | removeSyscall k ns =>
    unfold Abs.step
    dsimp only
    split
    · exact ⟨hen, s, hs, hz⟩
    · rename_i sc' hl
      refine ⟨hen, ?_⟩
      unfold Abs.setRule
      dsimp only
      split
      · rename_i hx
        exact absurd ⟨hx.1.symm, hx.2.symm⟩ (ho sc' hl)
      · exact ⟨s, hs, hz⟩
  | addMetrics ns f =>
    unfold Abs.step
    dsimp only
    split
    · exact ⟨hen, s, hs, hz⟩
    · split <;> exact ⟨hen, s, hs, hz⟩
  | removeMetrics ns => exact ⟨hen, s, hs, hz⟩
  | enable => exact ⟨rfl, s, hs, hz⟩
  | callEvent ns tid nr' =>
    unfold Abs.step
    dsimp only
    rw [if_pos hen]
    split
    · exact ⟨hen, s, hs, hz⟩
    · rename_i sc' s' hd
      refine ⟨hen, ?_⟩
      unfold Abs.setRule
      dsimp only
      split
      · rename_i hx
        refine ⟨_, rfl, ?_⟩
        intro hzt
        show s'.rate = 0
        have hs' : a.sys sc' nr' = some s' := by
          unfold Abs.decider at hd
          split at hd
          · injection hd with hd; injection hd with h1 h2; subst h1; subst h2; assumption
          · rw [Option.map_eq_some_iff] at hd
            obtain ⟨y, hy, e⟩ := hd
            injection e with h1 h2; subst h1; subst h2; exact hy
        rw [← hx.1, ← hx.2, hs] at hs'
        injection hs' with hs'
        rw [← hs']; exact hz hzt
      · exact ⟨s, hs, hz⟩
  | metricsEvent ns tid nr' => exact ⟨hen, s, hs, hz⟩

theorem covered_key {m : KMaps} {sc : Option (BitVec 32)} {nr : BitVec 32} {z : Bool} (h : Covered m sc nr z) :
    ∃ v, GoMap.get m.filter (sysKey sc nr) = some v ∧ v.action = factionAllow ∧
      isFilterEnabled m (sysKey sc nr).flags = true ∧ isFilterEnabled m fmodeEnabled = true ∧
      (z = true → v.sampleRate = 0) := by
  obtain ⟨a, hr, hen, s, hs, hz⟩ := h
  have h1 := hr.sys sc nr
  rw [hs] at h1
  cases hg : GoMap.get m.filter (sysKey sc nr) with
  | none => rw [hg] at h1; exact h1.elim
  | some v =>
    rw [hg] at h1
    refine ⟨v, rfl, hr.act _ _ hg, hr.gate _ _ hg, by rw [hr.en, hen], ?_⟩
    intro hzt
    have h2 : v.sampleRate.toNat = s.rate := h1.1
    rw [hz hzt] at h2
    exact BitVec.eq_of_toNat_eq (by simpa using h2)

/-- A covered call passes the kernel filter. -/
theorem covered_passes (tbl : Syscalls) {m : KMaps} {n nr : BitVec 32} (h : Covered m (some n) nr true) (tid : BitVec 32) :
    (Filter.step tbl m (.callEvent n tid nr)).2 = true := by
  obtain ⟨a, hr, hen, s, hs, hz⟩ := h
  rw [(rel_step tbl hr _).2]
  unfold Abs.step
  dsimp only
  rw [if_pos hen]
  unfold Abs.decider
  rw [hs]
  simp [Sample.nextPasses, hz rfl]

/-- Deletion keeps a rule whose pair has a remaining context. -/
theorem covered_delete (tbl : Syscalls) {h h' : Hub} {R : List Ctx} (hi : Inv h R) (id : String)
    (hd : deleteTrace tbl h id = .done h') (ns nr : Int) (s : Syscall) (hl : lookup tbl (.int nr) = some s)
    (c : Ctx) (hc : c ∈ R) (hid : c.job.id ≠ id) (hns : c.ns = ns) (hnr : c.nr = nr) {z : Bool}
    (hinj : ∀ x ∈ R, ruleKey tbl x.ns x.nr = ruleKey tbl ns nr → x.ns = ns ∧ x.nr = nr)
    (hcov : Covered h.maps (scope ns) (BitVec.ofNat 32 s.nr) z) :
    Covered h'.maps (scope ns) (BitVec.ofNat 32 s.nr) z := by
  rcases delete_spec tbl hi id with ⟨_, hx⟩ | ⟨_, h1, hx, hi1, hmaps, _⟩
  · rw [hx] at hd; cases hd
  · rw [hx] at hd; injection hd with hd; subst hd
    obtain ⟨a, hr, hen, sm, hs, hz⟩ := hcov
    rw [hmaps]
    obtain ⟨a', hr', hen', hk⟩ := mapsAfter_rel tbl (idOf R id) R h.maps a hr
    refine ⟨a', hr', by rw [hen', hen], ?_⟩
    have hget := (mapsAfter_get tbl (sysKey (scope ns) (BitVec.ofNat 32 s.nr)) (idOf R id) R h.maps hi.nodup
      (List.Nodup.sublist ((List.filter_sublist).map _) hi.nodup) (fun c hc => (List.mem_filter.1 hc).1)).2 (by
        rintro ⟨x, hx, hp, hkx⟩
        have hk0 : ruleKey tbl ns nr = some (sysKey (scope ns) (BitVec.ofNat 32 s.nr)) := by
          rw [ruleKey_eq, hl]; rfl
        obtain ⟨e1, e2⟩ := hinj x (List.mem_filter.1 hx).1 (hkx.trans hk0.symm)
        rw [withoutAll_idOf hi.nodup, e1, e2] at hp
        have : c ∈ pairOf (R.filter (fun c => decide (c.job.id ≠ id))) ns nr := by
          unfold pairOf
          rw [List.mem_filter, List.mem_filter]
          exact ⟨⟨hc, by simpa using hid⟩, by simp [hns, hnr]⟩
        rw [hp] at this; simp at this)
    rcases hk (scope ns) (BitVec.ofNat 32 s.nr) with e | e
    · exact ⟨sm, by rw [e, hs], hz⟩
    · have h1 := hr'.sys (scope ns) (BitVec.ofNat 32 s.nr)
      rw [e, hget] at h1
      have h2 := hr.sys (scope ns) (BitVec.ofNat 32 s.nr)
      rw [hs] at h2
      cases hg : GoMap.get h.maps.filter (sysKey (scope ns) (BitVec.ofNat 32 s.nr)) with
      | none => rw [hg] at h2; exact h2.elim
      | some v => rw [hg] at h1; exact h1.elim

end Swoll.Lemmas.Hub
