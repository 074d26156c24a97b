import Verif.Spec.Wire
import Verif.Lemmas.JsonText
import Verif.Lemmas.Duration
import Verif.Lemmas.Json
/-
Traces are read as they are written.
-/
namespace Swoll.Lemmas.Wire
open Swoll Swoll.Wire Swoll.Spec.Wire Swoll.Spec.Json
open Swoll.Json (Str Json first only)
open Swoll.JobArgs (strLE)
open Swoll.Lemmas.Json

set_option simprocs false

attribute [local irreducible] named

/-! ### Which field a name is -/

theorem exprMember_key (e : Expr) (v : Json) : exprMember e ("key".toList, v) =
    (str e.key v).map ({ e with key := · }) := by
  unfold exprMember
  dsimp only
  exact if_pos (show named "key" "key".toList = true by decide +kernel)

theorem exprMember_operator (e : Expr) (v : Json) : exprMember e ("operator".toList, v) =
    (str e.op v).map ({ e with op := · }) := by
  unfold exprMember
  dsimp only
  refine (if_neg (show ¬ named "key" "operator".toList = true by decide +kernel)).trans ?_
  exact if_pos (show named "operator" "operator".toList = true by decide +kernel)

theorem exprMember_values (e : Expr) (v : Json) : exprMember e ("values".toList, v) =
    (strs v).map ({ e with values := · }) := by
  unfold exprMember
  dsimp only
  refine (if_neg (show ¬ named "key" "values".toList = true by decide +kernel)).trans ?_
  refine (if_neg (show ¬ named "operator" "values".toList = true by decide +kernel)).trans ?_
  exact if_pos (show named "values" "values".toList = true by decide +kernel)

theorem selectorMember_matchLabels (s : Selector) (v : Json) : selectorMember s ("matchLabels".toList, v) =
    (strMap s.labels v).map ({ s with labels := · }) := by
  unfold selectorMember
  dsimp only
  exact if_pos (show named "matchLabels" "matchLabels".toList = true by decide +kernel)

theorem selectorMember_matchExpressions (s : Selector) (v : Json) : selectorMember s ("matchExpressions".toList, v) =
    (exprs v).map ({ s with exprs := · }) := by
  unfold selectorMember
  dsimp only
  refine (if_neg (show ¬ named "matchLabels" "matchExpressions".toList = true by decide +kernel)).trans ?_
  exact if_pos (show named "matchExpressions" "matchExpressions".toList = true by decide +kernel)

theorem specMember_labelSelector (s : Spec) (v : Json) : specMember s ("labelSelector".toList, v) =
    (struct selectorMember s.label v).map ({ s with label := · }) := by
  unfold specMember
  dsimp only
  exact if_pos (show named "labelSelector" "labelSelector".toList = true by decide +kernel)

theorem specMember_fieldSelector (s : Spec) (v : Json) : specMember s ("fieldSelector".toList, v) =
    (struct selectorMember s.field v).map ({ s with field := · }) := by
  unfold specMember
  dsimp only
  refine (if_neg (show ¬ named "labelSelector" "fieldSelector".toList = true by decide +kernel)).trans ?_
  exact if_pos (show named "fieldSelector" "fieldSelector".toList = true by decide +kernel)

theorem specMember_hostSelector (s : Spec) (v : Json) : specMember s ("hostSelector".toList, v) =
    (strs v).map ({ s with hosts := · }) := by
  unfold specMember
  dsimp only
  refine (if_neg (show ¬ named "labelSelector" "hostSelector".toList = true by decide +kernel)).trans ?_
  refine (if_neg (show ¬ named "fieldSelector" "hostSelector".toList = true by decide +kernel)).trans ?_
  exact if_pos (show named "hostSelector" "hostSelector".toList = true by decide +kernel)

theorem specMember_syscalls (s : Spec) (v : Json) : specMember s ("syscalls".toList, v) =
    (strs v).map ({ s with calls := · }) := by
  unfold specMember
  dsimp only
  refine (if_neg (show ¬ named "labelSelector" "syscalls".toList = true by decide +kernel)).trans ?_
  refine (if_neg (show ¬ named "fieldSelector" "syscalls".toList = true by decide +kernel)).trans ?_
  refine (if_neg (show ¬ named "hostSelector" "syscalls".toList = true by decide +kernel)).trans ?_
  exact if_pos (show named "syscalls" "syscalls".toList = true by decide +kernel)

theorem specMember_duration (s : Spec) (v : Json) : specMember s ("duration".toList, v) =
    (duration v).map ({ s with duration := · }) := by
  unfold specMember
  dsimp only
  refine (if_neg (show ¬ named "labelSelector" "duration".toList = true by decide +kernel)).trans ?_
  refine (if_neg (show ¬ named "fieldSelector" "duration".toList = true by decide +kernel)).trans ?_
  refine (if_neg (show ¬ named "hostSelector" "duration".toList = true by decide +kernel)).trans ?_
  refine (if_neg (show ¬ named "syscalls" "duration".toList = true by decide +kernel)).trans ?_
  exact if_pos (show named "duration" "duration".toList = true by decide +kernel)

theorem specMember_sampleRate (s : Spec) (v : Json) : specMember s ("sampleRate".toList, v) =
    (int s.rate v).map ({ s with rate := · }) := by
  unfold specMember
  dsimp only
  refine (if_neg (show ¬ named "labelSelector" "sampleRate".toList = true by decide +kernel)).trans ?_
  refine (if_neg (show ¬ named "fieldSelector" "sampleRate".toList = true by decide +kernel)).trans ?_
  refine (if_neg (show ¬ named "hostSelector" "sampleRate".toList = true by decide +kernel)).trans ?_
  refine (if_neg (show ¬ named "syscalls" "sampleRate".toList = true by decide +kernel)).trans ?_
  refine (if_neg (show ¬ named "duration" "sampleRate".toList = true by decide +kernel)).trans ?_
  exact if_pos (show named "sampleRate" "sampleRate".toList = true by decide +kernel)

theorem metaMember_namespace (t : Trace) (v : Json) : metaMember t ("namespace".toList, v) =
    (str t.ns v).map ({ t with ns := · }) := by
  unfold metaMember
  dsimp only
  exact if_pos (show named "namespace" "namespace".toList = true by decide +kernel)

theorem metaMember_selfLink (t : Trace) (v : Json) : metaMember t ("selfLink".toList, v) =
    (str t.selfLink v).map ({ t with selfLink := · }) := by
  unfold metaMember
  dsimp only
  refine (if_neg (show ¬ named "namespace" "selfLink".toList = true by decide +kernel)).trans ?_
  exact if_pos (show named "selfLink" "selfLink".toList = true by decide +kernel)

theorem metaMember_creationTimestamp (t : Trace) (v : Json) : metaMember t ("creationTimestamp".toList, v) =
    some t := by
  unfold metaMember
  dsimp only
  refine (if_neg (show ¬ named "namespace" "creationTimestamp".toList = true by decide +kernel)).trans ?_
  exact if_neg (show ¬ named "selfLink" "creationTimestamp".toList = true by decide +kernel)

theorem statusMember_job (t : Trace) (v : Json) : statusMember t ("job".toList, v) =
    (str t.job v).map ({ t with job := · }) := by
  unfold statusMember
  dsimp only
  exact if_pos (show named "job" "job".toList = true by decide +kernel)

theorem traceMember_metadata (t : Trace) (v : Json) : traceMember t ("metadata".toList, v) =
    struct metaMember t v := by
  unfold traceMember
  dsimp only
  exact if_pos (show named "metadata" "metadata".toList = true by decide +kernel)

theorem traceMember_spec (t : Trace) (v : Json) : traceMember t ("spec".toList, v) =
    (struct specMember t.spec v).map ({ t with spec := · }) := by
  unfold traceMember
  dsimp only
  refine (if_neg (show ¬ named "metadata" "spec".toList = true by decide +kernel)).trans ?_
  exact if_pos (show named "spec" "spec".toList = true by decide +kernel)

theorem traceMember_status (t : Trace) (v : Json) : traceMember t ("status".toList, v) =
    struct statusMember t v := by
  unfold traceMember
  dsimp only
  refine (if_neg (show ¬ named "metadata" "status".toList = true by decide +kernel)).trans ?_
  refine (if_neg (show ¬ named "spec" "status".toList = true by decide +kernel)).trans ?_
  exact if_pos (show named "status" "status".toList = true by decide +kernel)

theorem jobMember_id (j : Str × Option Trace) (v : Json) : jobMember j ("id".toList, v) =
    (str j.1 v).map (·, j.2) := by
  unfold jobMember
  dsimp only
  exact if_pos (show named "id" "id".toList = true by decide +kernel)

theorem jobMember_traceSpec (j : Str × Option Trace) (v : Json) : jobMember j ("traceSpec".toList, v) =
    (tracePtr j.2 v).map (j.1, ·) := by
  unfold jobMember
  dsimp only
  refine (if_neg (show ¬ named "id" "traceSpec".toList = true by decide +kernel)).trans ?_
  exact if_pos (show named "traceSpec" "traceSpec".toList = true by decide +kernel)

theorem jobMember_monitoredHosts (j : Str × Option Trace) (v : Json) : jobMember j ("monitoredHosts".toList, v) =
    some j := by
  unfold jobMember
  dsimp only
  refine (if_neg (show ¬ named "id" "monitoredHosts".toList = true by decide +kernel)).trans ?_
  exact if_neg (show ¬ named "traceSpec" "monitoredHosts".toList = true by decide +kernel)

/-! ### Values -/

theorem mapM_map {α β : Type} {f : β → Option α} {g : α → β} : ∀ {l : List α}, (∀ x ∈ l, f (g x) = some x) →
    (l.map g).mapM f = some l
  | [], _ => rfl
  | x :: l, h => by
    rw [List.map_cons, List.mapM_cons, h x List.mem_cons_self, mapM_map (fun y hy => h y (List.mem_cons_of_mem _ hy))]
    rfl

theorem strs_ofStrs (l : List Str) : strs (ofStrs l) = some l := mapM_map (fun _ _ => rfl)

theorem int_ofInt {n : Int} (old : Int) (h1 : -(2 ^ 63 : Int) ≤ n) (h2 : n < 2 ^ 63) : int old (ofInt n) = some n :=
  Flags.atoi_itoa ⟨h1, h2⟩

/-- The map as it is read: its entries from the last key to the first. -/
def canonMap {V : Type} (m : GoMap Str V) : GoMap Str V := (m.mergeSort (fun a b => strLE a.1 b.1)).reverse

theorem canonMap_perm {V : Type} (m : GoMap Str V) : (canonMap m).Perm m :=
  (List.reverse_perm _).trans (List.mergeSort_perm _ _)

theorem canonMap_nil {V : Type} : canonMap ([] : GoMap Str V) = [] := by
  have := (canonMap_perm ([] : GoMap Str V)).length_eq
  exact List.length_eq_zero_iff.1 this

theorem get_canonMap {V : Type} {m : GoMap Str V} (h : m.NodupKeys) (k : Str) :
    GoMap.get m k = GoMap.get (canonMap m) k :=
  GoMap.get_perm (canonMap_perm m).symm h k

theorem foldlM_set {V W : Type} (f : W → Option V) (g : V → W) (c : V → V) : ∀ (l m : GoMap Str V),
    (∀ e ∈ l, f (g e.2) = some (c e.2)) → (l.map (·.1)).Nodup → (∀ e ∈ l, e.1 ∉ GoMap.keys m) →
    (l.map (fun e => (e.1, g e.2))).foldlM (fun m e => (f e.2).map (GoMap.set m e.1)) m =
      some ((l.map (fun e => (e.1, c e.2))).reverse ++ m)
  | [], m, _, _, _ => rfl
  | e :: l, m, h, hn, hd => by
    rw [List.map_cons, List.nodup_cons] at hn
    have hdel : GoMap.del m e.1 = m := by
      unfold GoMap.del
      rw [List.filter_eq_self]
      intro x hx
      simp only [ne_eq, decide_not, Bool.not_eq_true', decide_eq_false_iff_not]
      intro he
      exact hd e List.mem_cons_self (List.mem_map.2 ⟨x, hx, he⟩)
    rw [List.map_cons, List.foldlM_cons, h e List.mem_cons_self]
    simp only [Option.map_some, Option.bind_eq_bind, Option.bind_some]
    rw [GoMap.set, hdel, foldlM_set f g c l _ (fun x hx => h x (List.mem_cons_of_mem _ hx)) hn.2 (by
      intro x hx
      rw [GoMap.keys_cons, List.mem_cons]
      rintro (he | he)
      · exact hn.1 (List.mem_map.2 ⟨x, hx, he⟩)
      · exact hd x (List.mem_cons_of_mem _ hx) he)]
    simp

/-- A map of anything, written with its keys sorted. -/
theorem foldlM_sorted {V W : Type} (f : W → Option V) (g : V → W) (c : V → V) (m : GoMap Str V) (hn : m.NodupKeys)
    (h : ∀ e ∈ m, f (g e.2) = some (c e.2)) :
    ((m.mergeSort (fun a b => strLE a.1 b.1)).map (fun e => (e.1, g e.2))).foldlM
      (fun m e => (f e.2).map (GoMap.set m e.1)) [] = some (canonMap (m.map (fun e => (e.1, c e.2)))) := by
  have hp := List.mergeSort_perm m (fun a b => strLE a.1 b.1)
  rw [foldlM_set f g c _ _ (fun e he => h e (hp.mem_iff.1 he)) ((hp.map Prod.fst).nodup_iff.2 hn) (by simp)]
  rw [List.append_nil, canonMap, List.map_mergeSort (s := fun a b => strLE a.1 b.1)]
  intro a _ b _
  rfl

theorem strMap_ofMap {m : GoMap Str Str} (hn : m.NodupKeys) : strMap [] (ofMap m) = some (canonMap m) := by
  have := foldlM_sorted (str []) Json.str id m hn (fun e _ => rfl)
  simpa [strMap, ofMap] using this

/-! ### Structures -/

theorem isEmpty_opt {α : Type} (l : List α) (name : String) (v : Json) :
    (l = [] ∧ opt l.isEmpty name v = []) ∨ opt l.isEmpty name v = [(name.toList, v)] := by
  cases l with
  | nil => exact Or.inl ⟨rfl, rfl⟩
  | cons a l => exact Or.inr rfl

theorem expr_ofExpr (e : Expr) : struct exprMember ⟨[], [], []⟩ (ofExpr e) = some e := by
  obtain ⟨key, op, values⟩ := e
  unfold ofExpr
  simp only [struct, List.foldlM_append, List.foldlM_cons, List.foldlM_nil, exprMember_key, exprMember_operator]
  simp only [str, Option.map_some, Option.bind_eq_bind, Option.bind_some]
  rcases isEmpty_opt values "values" (ofStrs values) with ⟨h, ho⟩ | ho
  · subst h; rfl
  · rw [ho]
    simp only [List.foldlM_cons, List.foldlM_nil, exprMember_values, strs_ofStrs]
    rfl

theorem exprs_ofExprs (l : List Expr) : exprs (.arr (l.map ofExpr)) = some l := mapM_map (fun e _ => expr_ofExpr e)

/-- As it is read. -/
def canonSelector (s : Selector) : Selector := { s with labels := canonMap s.labels }

theorem selector_ofSelector {s : Selector} (hn : s.labels.NodupKeys) :
    struct selectorMember .zero (ofSelector s) = some (canonSelector s) := by
  obtain ⟨labels, ex⟩ := s
  unfold ofSelector
  simp only [struct, List.foldlM_append, Selector.zero, canonSelector]
  have h1 : (opt labels.isEmpty "matchLabels" (ofMap labels)).foldlM selectorMember ⟨[], []⟩ =
      some ⟨canonMap labels, []⟩ := by
    rcases isEmpty_opt labels "matchLabels" (ofMap labels) with ⟨h, ho⟩ | ho
    · subst h; rw [canonMap_nil]; rfl
    · rw [ho]
      simp only [List.foldlM_cons, List.foldlM_nil, selectorMember_matchLabels]
      rw [strMap_ofMap hn]
      rfl
  rw [h1]
  rcases isEmpty_opt ex "matchExpressions" (.arr (ex.map ofExpr)) with ⟨h, ho⟩ | ho
  · subst h; rfl
  · simp only [ho, Option.bind_eq_bind, Option.bind_some, List.foldlM_cons, List.foldlM_nil,
      selectorMember_matchExpressions, exprs_ofExprs]
    rfl

/-- As it is read. -/
def canonSpec (s : Spec) : Spec := { s with label := canonSelector s.label, field := canonSelector s.field }

theorem spec_ofSpec {s : Spec} (hv : Values s) : struct specMember .zero (ofSpec s) = some (canonSpec s) := by
  obtain ⟨label, field, hosts, calls, dur, rate⟩ := s
  obtain ⟨h1, h2, h3, h4, h5, h6⟩ := hv
  dsimp only at h1 h2 h3 h4 h5 h6
  unfold ofSpec
  rw [struct]
  simp only [List.foldlM_append, List.foldlM_cons, List.foldlM_nil, specMember_labelSelector,
    specMember_fieldSelector, specMember_duration, Option.bind_eq_bind, Spec.zero, selector_ofSelector h1,
    selector_ofSelector h2, Option.map_some, Option.bind_some, Option.pure_def, canonSpec, duration,
    Duration.parse_text dur h3 h4]
  have e1 : ∀ s : Spec, s.hosts = [] → (opt hosts.isEmpty "hostSelector" (ofStrs hosts)).foldlM specMember s =
      some { s with hosts := hosts } := by
    intro s hs
    rcases isEmpty_opt hosts "hostSelector" (ofStrs hosts) with ⟨h, ho⟩ | ho
    · subst h; cases s; cases hs; rfl
    · rw [ho]
      simp only [List.foldlM_cons, List.foldlM_nil, specMember_hostSelector, strs_ofStrs]
      rfl
  have e2 : ∀ s : Spec, s.calls = [] → (opt calls.isEmpty "syscalls" (ofStrs calls)).foldlM specMember s =
      some { s with calls := calls } := by
    intro s hs
    rcases isEmpty_opt calls "syscalls" (ofStrs calls) with ⟨h, ho⟩ | ho
    · subst h; cases s; cases hs; rfl
    · rw [ho]
      simp only [List.foldlM_cons, List.foldlM_nil, specMember_syscalls, strs_ofStrs]
      rfl
  have e3 : ∀ s : Spec, s.rate = 0 → (opt (rate == 0) "sampleRate" (ofInt rate)).foldlM specMember s =
      some { s with rate := rate } := by
    intro s hs
    by_cases h : rate = 0
    · subst h; cases s; cases hs; rfl
    · rw [show (rate == 0) = false from by simpa using h]
      simp only [opt, Bool.false_eq_true, if_false, List.foldlM_cons, List.foldlM_nil, specMember_sampleRate,
        int_ofInt _ h5 h6]
      rfl
  rw [e1 _ rfl]
  simp only [Option.bind_some]
  rw [e2 _ rfl]
  simp only [Option.bind_some]
  rw [e3 _ rfl]

/-- As it is read. -/
def canonTrace (t : Trace) : Trace := { t with spec := canonSpec t.spec }

theorem trace_ofTrace {t : Trace} (hv : Values t.spec) : struct traceMember .zero (ofTrace t) = some (canonTrace t) := by
  obtain ⟨ns, link, spec, job⟩ := t
  dsimp only at hv
  have hstr : ∀ (s : Str) (name : String), (s = [] ∧ opt s.isEmpty name (.str s) = []) ∨
      opt s.isEmpty name (.str s) = [(name.toList, .str s)] := fun s name => isEmpty_opt s name _
  have e1 : struct metaMember .zero (.obj (opt ns.isEmpty "namespace" (.str ns) ++
      opt link.isEmpty "selfLink" (.str link) ++ [("creationTimestamp".toList, .null)])) =
      some ⟨ns, link, .zero, []⟩ := by
    simp only [struct, List.foldlM_append, Trace.zero]
    rcases hstr ns "namespace" with ⟨h, ho⟩ | ho <;> rcases hstr link "selfLink" with ⟨h', ho'⟩ | ho' <;>
      (rw [ho, ho']; simp only [List.foldlM_cons, List.foldlM_nil, metaMember_namespace, metaMember_selfLink,
        metaMember_creationTimestamp, str, Option.map_some, Option.bind_eq_bind, Option.bind_some, Option.pure_def])
    · rw [h, h']
    · rw [h]
    · rw [h']
  have e2 : ∀ sp, struct statusMember ⟨ns, link, sp, []⟩ (.obj (opt job.isEmpty "job" (.str job))) =
      some ⟨ns, link, sp, job⟩ := by
    intro sp
    rcases hstr job "job" with ⟨h, ho⟩ | ho
    · rw [ho, h]; rfl
    · rw [ho]
      simp only [struct, List.foldlM_cons, List.foldlM_nil, statusMember_job]
      rfl
  unfold ofTrace
  dsimp only
  rw [struct]
  simp only [List.foldlM_cons, List.foldlM_nil, traceMember_metadata, traceMember_spec, traceMember_status]
  rw [e1]
  simp only [Option.bind_eq_bind, Option.bind_some]
  rw [spec_ofSpec hv]
  simp only [Option.map_some, Option.bind_some]
  rw [e2]
  rfl

theorem tracePtr_ofTrace {t : Trace} (hv : Values t.spec) : tracePtr none (ofTrace t) = some (some (canonTrace t)) := by
  show (struct traceMember .zero (ofTrace t)).map some = _
  rw [trace_ofTrace hv]
  rfl

theorem job_ofJob (id : Str) {t : Trace} (hv : Values t.spec) :
    struct jobMember ([], none) (ofJob id t) = some (id, some (canonTrace t)) := by
  simp only [ofJob, struct, List.foldlM_cons, List.foldlM_nil, jobMember_id, jobMember_traceSpec]
  simp only [str, Option.map_some, Option.bind_eq_bind, Option.bind_some, tracePtr_ofTrace hv]
  rfl

theorem job_ofListed (hosts : List Str) (id : Str) {t : Trace} (hv : Values t.spec) :
    struct jobMember ([], none) (ofListed hosts id t) = some (id, some (canonTrace t)) := by
  simp only [ofListed, struct, List.foldlM_cons, List.foldlM_nil, jobMember_id, jobMember_traceSpec,
    jobMember_monitoredHosts]
  simp only [str, Option.map_some, Option.bind_eq_bind, Option.bind_some, tracePtr_ofTrace hv]
  rfl

/-! ### What is written is JSON -/

theorem fineElems {l : List Json} (h : ∀ v ∈ l, Fine v) : FineElems l := by
  induction l with
  | nil => trivial
  | cons a l ih => exact ⟨h a List.mem_cons_self, ih (fun v hv => h v (List.mem_cons_of_mem _ hv))⟩

theorem fineMembers {l : List (Str × Json)} (h : ∀ e ∈ l, Fine e.2) : FineMembers l := by
  induction l with
  | nil => trivial
  | cons a l ih => exact ⟨h a List.mem_cons_self, ih (fun v hv => h v (List.mem_cons_of_mem _ hv))⟩

theorem fine_ofStrs (l : List Str) : Fine (ofStrs l) := by
  refine fineElems (fun v hv => ?_)
  obtain ⟨s, -, rfl⟩ := List.mem_map.1 hv
  trivial

theorem fine_ofMap (m : GoMap Str Str) : Fine (ofMap m) := by
  refine fineMembers (fun v hv => ?_)
  obtain ⟨s, -, rfl⟩ := List.mem_map.1 hv
  trivial

theorem digits_number (n : Nat) : Digits (Flags.digits n) ∧
    ((Flags.digits n).head? = some '0' → Flags.digits n = ['0']) := by
  refine ⟨⟨?_, ?_⟩, ?_⟩
  · have := Duration.digits_ne n []
    rwa [List.append_nil] at this
  · intro c hc
    exact Lemmas.Json.isDigit_iff.1 (Duration.isDigit_digits n c hc)
  · induction n using Nat.strongRecOn with
    | ind n ih =>
      intro h
      rw [Flags.digits] at h ⊢
      split at h
      · next hlt =>
        rw [dif_pos hlt]
        have : ∀ d, d < 10 → [Flags.digit d].head? = some '0' → [Flags.digit d] = ['0'] := by decide
        exact this n hlt h
      · next hge =>
        exfalso
        have hne : Flags.digits (n / 10) ≠ [] := by
          have := Duration.digits_ne (n / 10) []
          rwa [List.append_nil] at this
        have hh : (Flags.digits (n / 10)).head? = some '0' := by
          rw [List.head?_append] at h
          cases hd : (Flags.digits (n / 10)).head? with
          | none => exact absurd (List.head?_eq_none_iff.1 hd) hne
          | some c => rw [hd] at h; exact h
        have h0 := ih (n / 10) (by omega) hh
        have hv := Duration.val_digits (n / 10)
        rw [h0] at hv
        have : Swoll.Duration.val ['0'] = 0 := by decide
        omega

theorem fine_ofInt (n : Int) : Fine (ofInt n) := by
  obtain ⟨h1, h2⟩ := digits_number n.natAbs
  show Number (Flags.itoa n)
  unfold Flags.itoa
  split
  · exact ⟨['-'], Flags.digits n.natAbs, [], [], by simp, Or.inr rfl, h1, h2, Or.inl rfl, Or.inl rfl⟩
  · exact ⟨[], Flags.digits n.natAbs, [], [], by simp, Or.inl rfl, h1, h2, Or.inl rfl, Or.inl rfl⟩

theorem fine_opt {b : Bool} {name : String} {v : Json} (h : Fine v) : ∀ e ∈ opt b name v, Fine e.2 := by
  intro e he
  unfold opt at he
  split at he
  · cases he
  · rw [List.mem_singleton.1 he]; exact h

theorem fine_ofExpr (e : Expr) : Fine (ofExpr e) := by
  refine fineMembers (fun m hm => ?_)
  rcases List.mem_append.1 hm with hm | hm
  · simp only [List.mem_cons, List.not_mem_nil, or_false] at hm
    rcases hm with rfl | rfl <;> trivial
  · exact fine_opt (fine_ofStrs _) m hm

theorem fine_ofSelector (s : Selector) : Fine (ofSelector s) := by
  refine fineMembers (fun m hm => ?_)
  rcases List.mem_append.1 hm with hm | hm
  · exact fine_opt (fine_ofMap _) m hm
  · refine fine_opt (v := .arr (s.exprs.map ofExpr)) (fineElems (fun v hv => ?_)) m hm
    obtain ⟨e, -, rfl⟩ := List.mem_map.1 hv
    exact fine_ofExpr e

theorem fine_ofSpec (s : Spec) : Fine (ofSpec s) := by
  refine fineMembers (fun m hm => ?_)
  simp only [List.mem_append] at hm
  rcases hm with (((hm | hm) | hm) | hm) | hm
  · simp only [List.mem_cons, List.not_mem_nil, or_false] at hm
    rcases hm with rfl | rfl
    · exact fine_ofSelector _
    · exact fine_ofSelector _
  · exact fine_opt (fine_ofStrs _) m hm
  · exact fine_opt (fine_ofStrs _) m hm
  · rw [List.mem_singleton.1 hm]; trivial
  · exact fine_opt (fine_ofInt _) m hm

theorem fine_ofTrace (t : Trace) : Fine (ofTrace t) := by
  refine fineMembers (fun m hm => ?_)
  simp only [List.mem_cons, List.not_mem_nil, or_false] at hm
  rcases hm with rfl | rfl | rfl
  · refine fineMembers (fun m hm => ?_)
    simp only [List.mem_append] at hm
    rcases hm with (hm | hm) | hm
    · exact fine_opt (v := .str _) trivial m hm
    · exact fine_opt (v := .str _) trivial m hm
    · rw [List.mem_singleton.1 hm]; trivial
  · exact fine_ofSpec _
  · exact fineMembers (fun m hm => fine_opt (v := .str _) trivial m hm)

theorem fine_ofJob (id : Str) (t : Trace) : Fine (ofJob id t) := by
  refine fineMembers (fun m hm => ?_)
  simp only [List.mem_cons, List.not_mem_nil, or_false] at hm
  rcases hm with rfl | rfl
  · trivial
  · exact fine_ofTrace t

theorem fine_ofJobs (m : GoMap Str (List Str × Trace)) : Fine (ofJobs m) := by
  refine fineMembers (fun v hv => ?_)
  obtain ⟨e, -, rfl⟩ := List.mem_map.1 hv
  refine fineMembers (fun m hm => ?_)
  simp only [List.mem_cons, List.not_mem_nil, or_false] at hm
  rcases hm with rfl | rfl | rfl
  · exact fine_ofStrs _
  · trivial
  · exact fine_ofTrace _

/-! ### The same -/

theorem same_selector {s : Selector} (h : s.labels.NodupKeys) : SameSelector s (canonSelector s) :=
  ⟨fun k => get_canonMap h k, rfl⟩

theorem same_spec {s : Spec} (h : Values s) : SameSpec s (canonSpec s) :=
  ⟨same_selector h.1, same_selector h.2.1, rfl, rfl, rfl, rfl⟩

theorem same_trace {t : Trace} (h : Values t.spec) : SameTrace t (canonTrace t) :=
  ⟨rfl, rfl, rfl, same_spec h⟩

end Swoll.Lemmas.Wire
