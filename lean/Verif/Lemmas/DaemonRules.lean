import Verif.Lemmas.HubJob
/-
Where the rules of the kernel filter come from, over histories of hub operations.
-/
namespace Swoll.Lemmas.Daemon
open Swoll Swoll.Syscalls
open Swoll.Spec.Filter (scope Abs Sample)
open Swoll.Lemmas.Filter (Rel rel_step rel_empty)
open Swoll.Lemmas.Hub (Inv inv_step inv_init mapsAfter delete_spec idOf without)

/-- The filter operation asks for the syscall. -/
def Asks (tbl : Syscalls) (sc : Option (BitVec 32)) (nr : BitVec 32) (o : Filter.Op) : Prop :=
  ∃ k n s, ((∃ f, o = .addSyscall k n f) ∨ (∃ r f, o = .addSampled k n r f)) ∧ lookup tbl k = some s ∧
    BitVec.ofNat 32 s.nr = nr ∧ scope n = sc

/-- How a rule set may change: rules appear only when asked for (`P`), metrics only when asked for
(`M`), and metrics never go. -/
structure Track (P : Option (BitVec 32) → BitVec 32 → Prop) (M : BitVec 32 → Prop) (a a' : Abs) : Prop where
  en : a.enabled = true → a'.enabled = true
  sys : ∀ sc nr s, a'.sys sc nr = some s → (∃ s0, a.sys sc nr = some s0) ∨ P sc nr
  met : ∀ n, a.met n = true → a'.met n = true
  new : ∀ n, a'.met n = true → a.met n = true ∨ M n

theorem Track.refl {P : Option (BitVec 32) → BitVec 32 → Prop} {M : BitVec 32 → Prop} (a : Abs) : Track P M a a :=
  ⟨id, fun _ _ s h => Or.inl ⟨s, h⟩, fun _ h => h, fun _ h => Or.inl h⟩

theorem Track.trans {P : Option (BitVec 32) → BitVec 32 → Prop} {M : BitVec 32 → Prop} {a b c : Abs}
    (h : Track P M a b) (k : Track P M b c) : Track P M a c := by
  refine ⟨fun x => k.en (h.en x), fun sc nr s hs => ?_, fun n x => k.met n (h.met n x), fun n x => ?_⟩
  · rcases k.sys sc nr s hs with ⟨s0, h0⟩ | h0
    · exact h.sys sc nr s0 h0
    · exact Or.inr h0
  · rcases k.new n x with h0 | h0
    · exact h.new n h0
    · exact Or.inr h0

theorem Track.mono {P P' : Option (BitVec 32) → BitVec 32 → Prop} {M M' : BitVec 32 → Prop} {a b : Abs}
    (h : Track P M a b) (hp : ∀ sc nr, P sc nr → P' sc nr) (hm : ∀ n, M n → M' n) : Track P' M' a b := by
  refine ⟨h.en, fun sc nr s hs => ?_, h.met, fun n x => ?_⟩
  · rcases h.sys sc nr s hs with h0 | h0
    · exact Or.inl h0
    · exact Or.inr (hp _ _ h0)
  · rcases h.new n x with h0 | h0
    · exact Or.inl h0
    · exact Or.inr (hm _ h0)

/-- The filter operation asks for metrics. -/
def AsksMet (n : BitVec 32) (o : Filter.Op) : Prop := ∃ ns f, o = .addMetrics ns f ∧ scope ns = some n

theorem decider_sys {a : Abs} {ns nr : BitVec 32} {sc : Option (BitVec 32)} {s : Sample}
    (h : a.decider ns nr = some (sc, s)) : a.sys sc nr = some s ∧ (sc = some ns ∨ sc = none) := by
  unfold Abs.decider at h
  split at h
  · injection h with h; injection h with h1 h2; subst h1; subst h2; exact ⟨by assumption, Or.inl rfl⟩
  · rw [Option.map_eq_some_iff] at h
    obtain ⟨y, hy, e⟩ := h
    injection e with h1 h2; subst h1; subst h2; exact ⟨hy, Or.inr rfl⟩

theorem track_filter (tbl : Syscalls) (a : Abs) (o : Filter.Op) :
    Track (fun sc nr => Asks tbl sc nr o) (fun n => AsksMet n o) a (a.step tbl o).1 := by
  cases o with
  | addSyscall k ns f =>
    simp only [Abs.step]
    split
    · exact Track.refl a
    · rename_i s hl
      split
      · exact Track.refl a
      · refine ⟨id, fun sc nr v hv => ?_, fun _ h => h, fun _ h => Or.inl h⟩
        simp only [Abs.setRule] at hv
        split at hv
        · rename_i hx
          exact Or.inr ⟨k, ns, s, Or.inl ⟨f, rfl⟩, hl, hx.2.symm, hx.1.symm⟩
        · exact Or.inl ⟨v, hv⟩
  | addSampled k ns rate f =>
    simp only [Abs.step]
    split
    · exact Track.refl a
    · rename_i s hl
      split
      · exact Track.refl a
      · refine ⟨id, fun sc nr v hv => ?_, fun _ h => h, fun _ h => Or.inl h⟩
        simp only [Abs.setRule] at hv
        split at hv
        · rename_i hx
          exact Or.inr ⟨k, ns, s, Or.inr ⟨rate, f, rfl⟩, hl, hx.2.symm, hx.1.symm⟩
        · exact Or.inl ⟨v, hv⟩
  | removeSyscall k ns =>
    simp only [Abs.step]
    split
    · exact Track.refl a
    · refine ⟨id, fun sc nr v hv => ?_, fun _ h => h, fun _ h => Or.inl h⟩
      simp only [Abs.setRule] at hv
      split at hv
      · cases hv
      · exact Or.inl ⟨v, hv⟩
  | addMetrics ns f =>
    simp only [Abs.step]
    split
    · exact Track.refl a
    · split
      · exact Track.refl a
      · rename_i n hn
        refine ⟨id, fun sc nr v hv => Or.inl ⟨v, hv⟩, fun x hx => ?_, fun x hx => ?_⟩
        · simp only; split <;> simp [hx]
        · simp only at hx
          split at hx
          · rename_i e; exact Or.inr ⟨ns, f, rfl, by rw [hn, e]⟩
          · exact Or.inl hx
  | removeMetrics ns => exact Track.refl a
  | enable => exact ⟨fun _ => rfl, fun sc nr v hv => Or.inl ⟨v, hv⟩, fun _ h => h, fun _ h => Or.inl h⟩
  | callEvent ns tid nr =>
    simp only [Abs.step]
    split
    · split
      · exact Track.refl a
      · rename_i sc s hd
        refine ⟨id, fun sc' nr' v hv => ?_, fun _ h => h, fun _ h => Or.inl h⟩
        simp only [Abs.setRule] at hv
        split at hv
        · rename_i hx; exact Or.inl ⟨s, by rw [hx.1, hx.2]; exact (decider_sys hd).1⟩
        · exact Or.inl ⟨v, hv⟩
    · exact Track.refl a
  | metricsEvent ns tid nr => exact Track.refl a

/-- The deletion loop only takes rules away. -/
theorem track_mapsAfter (tbl : Syscalls) (P : Option (BitVec 32) → BitVec 32 → Prop) (M : BitVec 32 → Prop) :
    ∀ (L R : List Hub.Ctx) (m : Filter.KMaps) (a : Abs), Rel m a →
    ∃ a', Rel (mapsAfter tbl m R L) a' ∧ Track P M a a' := by
  intro L
  induction L with
  | nil => intro R m a h; exact ⟨a, h, Track.refl a⟩
  | cons c cs ih =>
    intro R m a h
    show ∃ a', Rel (mapsAfter tbl _ (without R c) cs) a' ∧ _
    split
    · obtain ⟨a', r, t⟩ := ih (without R c) _ _ (rel_step tbl h (.removeSyscall (.int c.nr) c.ns)).1
      refine ⟨a', r, Track.trans (Track.mono (track_filter tbl a (.removeSyscall (.int c.nr) c.ns)) ?_ ?_) t⟩
      · rintro sc nr ⟨k, n, s, ⟨f, e⟩ | ⟨r, f, e⟩, _⟩ <;> cases e
      · rintro n ⟨ns, f, e, _⟩; cases e
    · exact ih (without R c) _ _ h

/-- The hub operation asks for the syscall, for the metrics. -/
def HubAsks (tbl : Syscalls) (sc : Option (BitVec 32)) (nr : BitVec 32) (o : Hub.Op) : Prop :=
  ∃ f, o = .filter f ∧ Asks tbl sc nr f
def HubAsksMet (n : BitVec 32) (o : Hub.Op) : Prop := ∃ f, o = .filter f ∧ AsksMet n f

theorem track_step (tbl : Syscalls) {h h' : Hub.Hub} {R : List Hub.Ctx} (hi : Inv h R) {op : Hub.Op} {b : Bool}
    {o : List Hub.Out} (hst : Hub.step tbl h op = some (h', b, o)) {a : Abs} (hr : Rel h.maps a) :
    ∃ a', Rel h'.maps a' ∧ Track (fun sc nr => HubAsks tbl sc nr op) (fun n => HubAsksMet n op) a a' := by
  cases op with
  | push j ns nr =>
    simp only [Hub.step, Option.some.injEq, Prod.mk.injEq] at hst
    obtain ⟨rfl, -, -⟩ := hst
    exact ⟨a, hr, Track.refl a⟩
  | swap rate ns nr =>
    simp only [Hub.step, Option.map_eq_some_iff, Prod.mk.injEq] at hst
    obtain ⟨x, hx, rfl, -, -⟩ := hst
    unfold Hub.swapSample at hx
    split at hx
    · cases hx
    · injection hx with hx; subst hx; exact ⟨a, hr, Track.refl a⟩
    · split at hx
      · injection hx with hx; subst hx
        refine ⟨_, (rel_step tbl hr (.removeSyscall (.int nr) ns)).1,
          Track.mono (track_filter tbl a (.removeSyscall (.int nr) ns)) ?_ ?_⟩
        · rintro sc nr ⟨k, n, s, ⟨f, e⟩ | ⟨r, f, e⟩, _⟩ <;> cases e
        · rintro n ⟨ns, f, e, _⟩; cases e
      · injection hx with hx; subst hx; exact ⟨a, hr, Track.refl a⟩
  | filter f =>
    simp only [Hub.step, Option.some.injEq, Prod.mk.injEq] at hst
    obtain ⟨rfl, -, -⟩ := hst
    exact ⟨_, (rel_step tbl hr f).1, Track.mono (track_filter tbl a f) (fun _ _ h => ⟨f, rfl, h⟩) (fun _ h => ⟨f, rfl, h⟩)⟩
  | delete id =>
    simp only [Hub.step] at hst
    rcases delete_spec tbl hi id with ⟨_, hx⟩ | ⟨_, h1, hx, _, hmaps, _⟩
    · rw [hx] at hst; simp only [Option.some.injEq, Prod.mk.injEq] at hst
      obtain ⟨rfl, -, -⟩ := hst
      exact ⟨a, hr, Track.refl a⟩
    · rw [hx] at hst; simp only [Option.some.injEq, Prod.mk.injEq] at hst
      obtain ⟨rfl, -, -⟩ := hst
      rw [hmaps]
      exact track_mapsAfter tbl _ _ _ _ _ _ hr
  | event e =>
    simp only [Hub.step, Option.map_eq_some_iff, Prod.mk.injEq] at hst
    obtain ⟨⟨x, y⟩, hx, rfl, -, -⟩ := hst
    have := Lemmas.Hub.handleEvent_same hi hx
    exact ⟨a, by rw [this.maps]; exact hr, Track.refl a⟩

theorem track_run (tbl : Syscalls) : ∀ (ops : List Hub.Op) (h h' : Hub.Hub) (R : List Hub.Ctx), Inv h R →
    Hub.run tbl h ops = some h' → ∀ a, Rel h.maps a →
    ∃ a', Rel h'.maps a' ∧ Track (fun sc nr => ∃ o ∈ ops, HubAsks tbl sc nr o) (fun n => ∃ o ∈ ops, HubAsksMet n o) a a' := by
  intro ops
  induction ops with
  | nil =>
    intro h h' R _ hr a ha
    simp only [Hub.run, Option.some.injEq] at hr; subst hr
    exact ⟨a, ha, Track.refl a⟩
  | cons o os ih =>
    intro h h' R hi hr a ha
    rw [Lemmas.Hub.run_cons] at hr
    cases hst : Hub.step tbl h o with
    | none => rw [hst] at hr; cases hr
    | some r =>
      obtain ⟨h1, b, out⟩ := r
      rw [hst] at hr
      obtain ⟨R1, hi1, _⟩ := inv_step tbl hi hst
      obtain ⟨a1, r1, t1⟩ := track_step tbl hi hst ha
      obtain ⟨a2, r2, t2⟩ := ih h1 h' R1 hi1 hr a1 r1
      refine ⟨a2, r2, Track.trans (Track.mono t1 ?_ ?_) (Track.mono t2 ?_ ?_)⟩
      · exact fun _ _ h => ⟨o, by simp, h⟩
      · exact fun _ h => ⟨o, by simp, h⟩
      · rintro _ _ ⟨x, hx, h⟩; exact ⟨x, by simp [hx], h⟩
      · rintro _ ⟨x, hx, h⟩; exact ⟨x, by simp [hx], h⟩

/-- The rule set of a new hub: the stub and the stub metrics. -/
theorem rules_new (tbl : Syscalls) : ∃ a, Rel (Hub.newHubMaps tbl Filter.KMaps.empty) a ∧ a.enabled = true ∧
    (∀ sc nr s, a.sys sc nr = some s → sc = some 0 ∧ ∃ x, lookup tbl (.str "sys_set_tid_address") = some x ∧
      BitVec.ofNat 32 x.nr = nr) ∧ (∀ n, a.met n = true ↔ n = 31337#32) := by
  have h1 := (rel_step tbl rel_empty (.addSyscall (.str "sys_set_tid_address") 0 {})).1
  have h2 := (rel_step tbl h1 (.addMetrics 31337 {})).1
  have h3 := (rel_step tbl h2 .enable).1
  refine ⟨_, h3, rfl, ?_, ?_⟩
  · intro sc nr s hs
    have : (Abs.step tbl (Abs.step tbl (Abs.step tbl Abs.empty (.addSyscall (.str "sys_set_tid_address") 0 {})).1
      (.addMetrics 31337 {})).1 .enable).1.sys = (Abs.step tbl Abs.empty (.addSyscall (.str "sys_set_tid_address") 0 {})).1.sys := by
      simp [Abs.step, scope]
    rw [this] at hs
    simp only [Abs.step] at hs
    split at hs
    · cases hs
    · rename_i x hx
      simp only [Bool.or_self, Bool.false_eq_true, if_false, Abs.setRule, Abs.empty] at hs
      split at hs
      · rename_i e; exact ⟨by rw [e.1]; rfl, x, hx, e.2.symm⟩
      · cases hs
  · intro n
    have : (Abs.step tbl (Abs.step tbl (Abs.step tbl Abs.empty (.addSyscall (.str "sys_set_tid_address") 0 {})).1
      (.addMetrics 31337 {})).1 .enable).1.met n = if n = 31337#32 then true else
        (Abs.step tbl Abs.empty (.addSyscall (.str "sys_set_tid_address") 0 {})).1.met n := by
      simp [Abs.step, scope]
    rw [this]
    have h0 : (Abs.step tbl Abs.empty (.addSyscall (.str "sys_set_tid_address") 0 {})).1.met n = false := by
      simp only [Abs.step]
      split <;> rfl
    rw [h0]
    simp

end Swoll.Lemmas.Daemon
