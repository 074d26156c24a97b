import Verif.Lemmas.WireShape
/-
C129: a trace survives the way to the server and back.
C130: which bodies are accepted for a trace.
-/
namespace Swoll.Props.Wire
open Swoll Swoll.Wire Swoll.Spec.Wire Swoll.Spec.Json
open Swoll.Json (Str Json first only)
open Swoll.Lemmas.Wire Swoll.Lemmas.Json

/-! ### C129 -/

/-- The server reads the body of a request as the request it was made from; and so it reads every text that says the
same, however it is spaced and escaped. -/
theorem c129_request (s : Spec) (hs : Values s) :
    ∃ s', SameSpec s s' ∧ readSpec (requestBody s) = some s' ∧
      ∃ v, Says (requestBody s) v ∧
        ∀ w t rest, Space w → Says t v → readSpec (w ++ t ++ rest) = some s' := by
  have hsay := text_says (ofSpec s) (fine_ofSpec s)
  have key : ∀ w t rest, Space w → Says t (ofSpec s) → readSpec (w ++ t ++ rest) = some (canonSpec s) := by
    intro w t rest hw ht
    unfold readSpec
    rw [first_says hw ht (by intro l e; unfold ofSpec at e; cases e)]
    exact spec_ofSpec hs
  refine ⟨canonSpec s, same_spec hs, ?_, ofSpec s, hsay, key⟩
  have := key [] (requestBody s) [] space_nil hsay
  rwa [List.nil_append, List.append_nil] at this

/-- The client of a create request gets the trace the server has made of it: the one it asked for, with the
namespace, the name of the job and the link to it. -/
theorem c129_created (ns id : Str) (s : Spec) (hs : Values s) :
    ∃ s' t, readSpec (requestBody s) = some s' ∧ readCreated 201 (createdBody ns id s') = some (some t) ∧
      t.ns = ns ∧ t.job = id ∧ t.selfLink = "/jobs/".toList ++ id ∧ SameSpec s t.spec := by
  obtain ⟨s', hsame, hread, -⟩ := c129_request s hs
  have hv : Values s' := by
    have h' : s' = canonSpec s := by
      unfold readSpec at hread
      have hsay := text_says (ofSpec s) (fine_ofSpec s)
      have h1 := first_says (rest := []) space_nil hsay (by intro l e; unfold ofSpec at e; cases e)
      rw [List.nil_append, List.append_nil] at h1
      unfold requestBody at hread
      rw [h1] at hread
      have h2 := spec_ofSpec hs
      simp only [Option.bind_some] at hread
      rw [h2] at hread
      injection hread with hread
      exact hread.symm
    subst h'
    obtain ⟨a, b, c⟩ := hs
    exact ⟨((canonMap_perm _).map Prod.fst).nodup_iff.2 a, ((canonMap_perm _).map Prod.fst).nodup_iff.2 b, c⟩
  refine ⟨s', canonTrace (created ns id s'), hread, ?_, rfl, rfl, rfl, ?_⟩
  · unfold readCreated createdBody
    rw [if_neg (by decide)]
    have h1 := only_says (w := []) (w' := []) space_nil (pretty_says 0 _ (fine_ofJob id (created ns id s'))) space_nil
    rw [List.nil_append, List.append_nil] at h1
    rw [h1, Option.bind_some, job_ofJob id (t := created ns id s') hv]
    rfl
  · obtain ⟨⟨a1, a2⟩, ⟨b1, b2⟩, c1, c2, c3, c4⟩ := hsame
    obtain ⟨⟨d1, d2⟩, ⟨e1, e2⟩, f1, f2, f3, f4⟩ := same_spec hv
    exact ⟨⟨fun k => (a1 k).trans (d1 k), a2.trans d2⟩, ⟨fun k => (b1 k).trans (e1 k), b2.trans e2⟩,
      c1.trans f1, c2.trans f2, c3.trans f3, c4.trans f4⟩

/-- The lists of jobs a client gets are the tables of the server: every job once, each in its list, and nothing
else. -/
theorem c129_jobs (running completed : GoMap Str (List Str × Trace)) (hr : running.NodupKeys) (hc : completed.NodupKeys)
    (hv : ∀ e ∈ running ++ completed, Values e.2.2.spec) :
    ∃ f : Trace → Trace, (∀ e ∈ running ++ completed, SameTrace e.2.2 (f e.2.2)) ∧
      ∃ rs cs as, runningJobs (jobsBody running completed) = some rs ∧
        completedJobs (jobsBody running completed) = some cs ∧ allJobs (jobsBody running completed) = some as ∧
        rs.Perm (running.map fun e => some (f e.2.2)) ∧ cs.Perm (completed.map fun e => some (f e.2.2)) ∧
        as.Perm ((running ++ completed).map fun e => some (f e.2.2)) := by
  refine ⟨canonTrace, fun e he => same_trace (hv e he), ?_⟩
  have fine : Lemmas.Json.Fine (Json.obj [("completed".toList, ofJobs completed), ("running".toList, ofJobs running)]) := by
    refine fineMembers (fun m hm => ?_)
    simp only [List.mem_cons, List.not_mem_nil, or_false] at hm
    rcases hm with rfl | rfl
    · exact fine_ofJobs _
    · exact fine_ofJobs _
  have h1 := only_says (w := []) (w' := []) space_nil (pretty_says 0 _ fine) space_nil
  rw [List.nil_append, List.append_nil] at h1
  have jm : ∀ m : GoMap Str (List Str × Trace), m.NodupKeys → (∀ e ∈ m, Values e.2.2.spec) →
      ∃ m', jobMap (ofJobs m) = some m' ∧ (m'.map (·.2.2)).Perm (m.map fun e => some (canonTrace e.2.2)) := by
    intro m hn hv
    have key : ∀ (l : GoMap Str (List Str × Trace)) (acc : GoMap Str (Str × Option Trace)), (l.map Prod.fst).Nodup →
        (∀ e ∈ l, Values e.2.2.spec) → (∀ e ∈ l, e.1 ∉ GoMap.keys acc) →
        (l.map (fun e => (e.1, ofListed e.2.1 e.1 e.2.2))).foldlM
          (fun m e => (struct jobMember ([], none) e.2).map (GoMap.set m e.1)) acc =
        some ((l.map (fun e => (e.1, e.1, some (canonTrace e.2.2)))).reverse ++ acc) := by
      intro l
      induction l with
      | nil => intro acc _ _ _; rfl
      | cons e l ih =>
        intro acc hn hv hd
        rw [List.map_cons, List.nodup_cons] at hn
        have hdel : GoMap.del acc e.1 = acc := by
          unfold GoMap.del
          rw [List.filter_eq_self]
          intro x hx
          simp only [ne_eq, decide_not, Bool.not_eq_true', decide_eq_false_iff_not]
          intro he
          exact hd e List.mem_cons_self (List.mem_map.2 ⟨x, hx, he⟩)
        rw [List.map_cons, List.foldlM_cons, job_ofListed _ _ (hv e List.mem_cons_self)]
        simp only [Option.map_some, Option.bind_eq_bind, Option.bind_some]
        rw [GoMap.set, hdel, ih _ hn.2 (fun x hx => hv x (List.mem_cons_of_mem _ hx)) (by
          intro x hx
          rw [GoMap.keys_cons, List.mem_cons]
          rintro (he | he)
          · exact hn.1 (List.mem_map.2 ⟨x, hx, he⟩)
          · exact hd x (List.mem_cons_of_mem _ hx) he)]
        simp
    have hp := List.mergeSort_perm m (fun a b => JobArgs.strLE a.1 b.1)
    refine ⟨_, key _ [] ((hp.map Prod.fst).nodup_iff.2 hn) (fun e he => hv e (hp.mem_iff.1 he)) (by simp), ?_⟩
    rw [List.append_nil, List.map_reverse, List.map_map]
    exact (List.reverse_perm _).trans (hp.map _)
  obtain ⟨mr, r1, r2⟩ := jm running hr (fun e he => hv e (List.mem_append_left _ he))
  obtain ⟨mc, c1, c2⟩ := jm completed hc (fun e he => hv e (List.mem_append_right _ he))
  have hread : readJobs (jobsBody running completed) = some (mr.map (·.2.2), mc.map (·.2.2)) := by
    unfold readJobs jobsBody
    rw [h1]
    simp only [Option.bind_some, jobMaps, List.foldlM_cons, List.foldlM_nil, c1, r1, Option.map_some,
      Option.bind_eq_bind, Option.pure_def]
    rw [GoMap.get_set_same, GoMap.get_set_other _ _ (by decide +kernel), GoMap.get_set_same]
    rfl
  refine ⟨mr.map (·.2.2), mc.map (·.2.2), mr.map (·.2.2) ++ mc.map (·.2.2), ?_, ?_, ?_, r2, c2, ?_⟩
  · unfold runningJobs; rw [hread]; rfl
  · unfold completedJobs; rw [hread]; rfl
  · unfold allJobs; rw [hread]; rfl
  · rw [List.map_append]
    exact r2.append c2

/-- The fields of a request that someone has written by hand: what is given for a field is what is read, the last
time if it is given more than once. -/
theorem c129_fields (w t rest : Str) (l1 l2 : List (Str × Json)) (k : Str) (v : Json) (s : Spec) (hw : Space w)
    (ht : Says t (.obj (l1 ++ (k, v) :: l2))) (h : readSpec (w ++ t ++ rest) = some s) :
    (∀ xs, Names "syscalls" k → (∀ e ∈ l2, ¬ Names "syscalls" e.1) → v = .arr (xs.map .str) → s.calls = xs) ∧
    (∀ xs, Names "hostSelector" k → (∀ e ∈ l2, ¬ Names "hostSelector" e.1) → v = .arr (xs.map .str) → s.hosts = xs) ∧
    (∀ x d, Names "duration" k → (∀ e ∈ l2, ¬ Names "duration" e.1) → v = .str x → Spec.Duration.Means x d →
      s.duration = d) ∧
    (∀ x n, Names "sampleRate" k → (∀ e ∈ l2, ¬ Names "sampleRate" e.1) → v = .num x → Whole x n → s.rate = n) := by
  have h' : (l1 ++ (k, v) :: l2).foldlM specMember .zero = some s := by
    unfold readSpec at h
    rw [first_says hw ht (by intro l e; cases e)] at h
    exact h
  refine ⟨?_, ?_, ?_, ?_⟩
  · rintro xs hk hl rfl
    obtain ⟨c, d, -, h2, h3⟩ := foldlM_last (π := Spec.calls) (P := fun e => Names "syscalls" e.1)
      (fun a b m e hn => (specMember_reads e).2.2.2.1.2 hn) hl h'
    have := (specMember_reads h2).2.2.2.1.1 hk
    rw [strs_map] at this
    injection this with this
    rw [h3, this]
  · rintro xs hk hl rfl
    obtain ⟨c, d, -, h2, h3⟩ := foldlM_last (π := Spec.hosts) (P := fun e => Names "hostSelector" e.1)
      (fun a b m e hn => (specMember_reads e).2.2.1.2 hn) hl h'
    have := (specMember_reads h2).2.2.1.1 hk
    rw [strs_map] at this
    injection this with this
    rw [h3, this]
  · rintro x dur hk hl rfl hd
    obtain ⟨c, d, -, h2, h3⟩ := foldlM_last (π := Spec.duration) (P := fun e => Names "duration" e.1)
      (fun a b m e hn => (specMember_reads e).2.2.2.2.1.2 hn) hl h'
    have := (specMember_reads h2).2.2.2.2.1.1 hk
    rw [duration, Lemmas.Duration.parse_iff.2 hd] at this
    injection this with this
    rw [h3, this]
  · rintro x n hk hl rfl hx
    obtain ⟨c, d, -, h2, h3⟩ := foldlM_last (π := Spec.rate) (P := fun e => Names "sampleRate" e.1)
      (fun a b m e hn => (specMember_reads e).2.2.2.2.2.2 hn) hl h'
    have := (specMember_reads h2).2.2.2.2.2.1 hk
    rw [int, (atoi_iff (says_members ht (k, .num x) (by simp) x rfl)).2 hx] at this
    injection this with this
    rw [h3, this]

/-- The labels of a selector that someone has written by hand, once. -/
theorem c129_labels (w t rest : Str) (l1 l2 a1 a2 : List (Str × Json)) (k k' : Str) (m : GoMap Str Str) (s : Spec)
    (hw : Space w) (hm : m.NodupKeys)
    (ht : Says t (.obj (l1 ++ (k, .obj (a1 ++ (k', .obj (m.map fun e => (e.1, .str e.2))) :: a2)) :: l2)))
    (h : readSpec (w ++ t ++ rest) = some s) (hk' : Names "matchLabels" k')
    (ha : ∀ e ∈ a1 ++ a2, ¬ Names "matchLabels" e.1) :
    (Names "labelSelector" k → (∀ e ∈ l1 ++ l2, ¬ Names "labelSelector" e.1) →
      ∀ x, GoMap.get s.label.labels x = GoMap.get m x) ∧
    (Names "fieldSelector" k → (∀ e ∈ l1 ++ l2, ¬ Names "fieldSelector" e.1) →
      ∀ x, GoMap.get s.field.labels x = GoMap.get m x) := by
  have h' := h
  unfold readSpec at h'
  rw [first_says hw ht (by intro l e; cases e)] at h'
  simp only [Option.bind_some, struct] at h'
  have hsel : ∀ s' : Selector, struct selectorMember .zero (.obj (a1 ++ (k', .obj (m.map fun e => (e.1, .str e.2))) :: a2)) =
      some s' → ∀ x, GoMap.get s'.labels x = GoMap.get m x := by
    intro s' hs' x
    obtain ⟨c, d, h1, h2, h3⟩ := foldlM_last (π := Selector.labels) (P := fun e => Names "matchLabels" e.1)
      (fun a b m e hn => (selectorMember_reads e).1.2 hn) (fun e he => ha e (List.mem_append_right _ he)) hs'
    have hc : c.labels = [] := foldlM_keeps (π := Selector.labels) (P := fun e => Names "matchLabels" e.1)
      (fun a b m e hn => (selectorMember_reads e).1.2 hn) a1 (fun e he => ha e (List.mem_append_left _ he)) h1
    have := (selectorMember_reads h2).1.1 hk'
    rw [hc, strMap_map hm] at this
    injection this with this
    rw [h3, ← this]
    exact (GoMap.get_perm (List.reverse_perm m).symm hm x).symm
  refine ⟨?_, ?_⟩
  · intro hk hl
    obtain ⟨c, d, h1, h2, h3⟩ := foldlM_last (π := Spec.label) (P := fun e => Names "labelSelector" e.1)
      (fun a b m e hn => (specMember_reads e).1.2 hn) (fun e he => hl e (List.mem_append_right _ he)) h'
    have hc : c.label = .zero := foldlM_keeps (π := Spec.label) (P := fun e => Names "labelSelector" e.1)
      (fun a b m e hn => (specMember_reads e).1.2 hn) l1 (fun e he => hl e (List.mem_append_left _ he)) h1
    have := (specMember_reads h2).1.1 hk
    rw [hc] at this
    rw [h3]
    exact hsel _ this
  · intro hk hl
    obtain ⟨c, d, h1, h2, h3⟩ := foldlM_last (π := Spec.field) (P := fun e => Names "fieldSelector" e.1)
      (fun a b m e hn => (specMember_reads e).2.1.2 hn) (fun e he => hl e (List.mem_append_right _ he)) h'
    have hc : c.field = .zero := foldlM_keeps (π := Spec.field) (P := fun e => Names "fieldSelector" e.1)
      (fun a b m e hn => (specMember_reads e).2.1.2 hn) l1 (fun e he => hl e (List.mem_append_left _ he)) h1
    have := (specMember_reads h2).2.1.1 hk
    rw [hc] at this
    rw [h3]
    exact hsel _ this

/-- A field that is not given is empty. -/
theorem c129_missing (w t rest : Str) (l : List (Str × Json)) (s : Spec) (hw : Space w) (ht : Says t (.obj l))
    (h : readSpec (w ++ t ++ rest) = some s) :
    ((∀ e ∈ l, ¬ Names "syscalls" e.1) → s.calls = []) ∧ ((∀ e ∈ l, ¬ Names "hostSelector" e.1) → s.hosts = []) ∧
    ((∀ e ∈ l, ¬ Names "duration" e.1) → s.duration = 0) ∧ ((∀ e ∈ l, ¬ Names "sampleRate" e.1) → s.rate = 0) ∧
    ((∀ e ∈ l, ¬ Names "labelSelector" e.1) → s.label = ⟨[], []⟩) ∧
    ((∀ e ∈ l, ¬ Names "fieldSelector" e.1) → s.field = ⟨[], []⟩) := by
  have h' : l.foldlM specMember .zero = some s := by
    unfold readSpec at h
    rw [first_says hw ht (by intro l e; cases e)] at h
    exact h
  refine ⟨fun hl => ?_, fun hl => ?_, fun hl => ?_, fun hl => ?_, fun hl => ?_, fun hl => ?_⟩
  · exact foldlM_keeps (π := Spec.calls) (P := fun e => Names "syscalls" e.1)
      (fun a b m e hn => (specMember_reads e).2.2.2.1.2 hn) l hl h'
  · exact foldlM_keeps (π := Spec.hosts) (P := fun e => Names "hostSelector" e.1)
      (fun a b m e hn => (specMember_reads e).2.2.1.2 hn) l hl h'
  · exact foldlM_keeps (π := Spec.duration) (P := fun e => Names "duration" e.1)
      (fun a b m e hn => (specMember_reads e).2.2.2.2.1.2 hn) l hl h'
  · exact foldlM_keeps (π := Spec.rate) (P := fun e => Names "sampleRate" e.1)
      (fun a b m e hn => (specMember_reads e).2.2.2.2.2.2 hn) l hl h'
  · exact foldlM_keeps (π := Spec.label) (P := fun e => Names "labelSelector" e.1)
      (fun a b m e hn => (specMember_reads e).1.2 hn) l hl h'
  · exact foldlM_keeps (π := Spec.field) (P := fun e => Names "fieldSelector" e.1)
      (fun a b m e hn => (specMember_reads e).2.1.2 hn) l hl h'

/-- A request in which everything is given. -/
def sample : Spec :=
  { label := ⟨[("app".toList, "web".toList), ("Tier".toList, "a\"<b>".toList)], [⟨"env".toList, "In".toList, ["x".toList]⟩]⟩
    field := ⟨[("status.phase".toList, "Running".toList)], []⟩
    hosts := ["n1".toList], calls := ["execve".toList, "open".toList], duration := 90000000000, rate := 5 }

example : Values sample := by refine ⟨?_, ?_, ?_, ?_, ?_, ?_⟩ <;> (try unfold GoMap.NodupKeys) <;> decide +kernel

example : Values (Trace.mk [] [] sample []).spec ∧
    GoMap.NodupKeys [("j1".toList, (["n1".toList], Trace.mk "ns".toList [] sample "j1".toList))] := by
  refine ⟨?_, ?_⟩
  · refine ⟨?_, ?_, ?_, ?_, ?_, ?_⟩ <;> (try unfold GoMap.NodupKeys) <;> decide +kernel
  · unfold GoMap.NodupKeys; decide +kernel

/-- A request written by hand, with other capitals, spaces, escapes, and a field given twice. -/
def byHand : Str :=
  " {\"Syscalls\" : [ \"clo\\u006ee\", \"open\" ], \"duration\": \"1m30s\", \"sampleRate\": 5, \"sampleRate\": 7, \"labelSelector\": {\"matchLabels\": {\"app\": \"web\"}}} ".toList

example : readSpec byHand = some ⟨⟨[("app".toList, "web".toList)], []⟩, ⟨[], []⟩, [],
    ["clone".toList, "open".toList], 90000000000, 7⟩ := by decide +kernel

/-- What it says is an object of this form, so that the theorems above are about it. -/
example : ∃ w t rest l, byHand = w ++ t ++ rest ∧ Space w ∧ Says t (.obj l) ∧
    l = [("Syscalls".toList, .arr (["clone".toList, "open".toList].map .str)), ("duration".toList, .str "1m30s".toList),
      ("sampleRate".toList, .num "5".toList), ("sampleRate".toList, .num "7".toList),
      ("labelSelector".toList, .obj [("matchLabels".toList, .obj [("app".toList, .str "web".toList)])])] ∧
    Names "syscalls" "Syscalls".toList ∧ Names "sampleRate" "sampleRate".toList ∧ Whole "7".toList 7 ∧
    Spec.Duration.Means "1m30s".toList 90000000000 := by
  have hf : first byHand = some (.obj [("Syscalls".toList, .arr (["clone".toList, "open".toList].map .str)), ("duration".toList, .str "1m30s".toList),
      ("sampleRate".toList, .num "5".toList), ("sampleRate".toList, .num "7".toList),
      ("labelSelector".toList, .obj [("matchLabels".toList, .obj [("app".toList, .str "web".toList)])])]) :=
    some_of_same (by decide +kernel)
  obtain ⟨w, t, rest, e, hw, ht⟩ := first_sound hf
  exact ⟨w, t, rest, _, e, hw, ht, rfl, by unfold Names; decide +kernel, by unfold Names; decide +kernel,
    ⟨"7".toList, by decide, by unfold Spec.Duration.Digits; decide +kernel, by decide, by decide, .inl ⟨rfl, by decide +kernel⟩⟩,
    Lemmas.Duration.parse_iff.1 (by decide +kernel)⟩

/-! ### C130 -/

/-- A body that is not a trace is made one: null is a trace of every call there is no list for; so is a body whose
fields are misspelt, and so is one with something else after it. -/
theorem c130_violated :
    readSpec "null".toList = some ⟨⟨[], []⟩, ⟨[], []⟩, [], [], 0, 0⟩ ∧
    readSpec "{\"syscals\":[\"open\"],\"labelSelecter\":{\"matchLabels\":{\"app\":\"web\"}}}".toList =
      some ⟨⟨[], []⟩, ⟨[], []⟩, [], [], 0, 0⟩ ∧
    readSpec "{\"syscalls\":[\"open\"]}{\"syscalls\":[\"close\"]}".toList =
      some ⟨⟨[], []⟩, ⟨[], []⟩, [], ["open".toList], 0, 0⟩ ∧
    readSpec "{\"syscalls\":[\"open\"]},]no json".toList =
      some ⟨⟨[], []⟩, ⟨[], []⟩, [], ["open".toList], 0, 0⟩ := by decide +kernel

/-- Exactly these bodies are accepted: after white space there is a JSON value, which is null or an object in which
what has the name of a field is of its kind. Missing for C130: the body may be null, it may have anything else in it,
and anything may follow. -/
theorem c130_accepted_partial (body : Str) :
    (∃ s, readSpec body = some s) ↔ ∃ w t rest v, body = w ++ t ++ rest ∧ Space w ∧ Says t v ∧ SpecJson v := by
  constructor
  · rintro ⟨s, h⟩
    unfold readSpec at h
    cases hf : first body with
    | none => rw [hf] at h; cases h
    | some v =>
      rw [hf, Option.bind_some] at h
      obtain ⟨w, t, rest, e, hw, ht⟩ := first_sound hf
      exact ⟨w, t, rest, v, e, hw, ht, (spec_isSome ht .zero).1 (by rw [h]; rfl)⟩
  · rintro ⟨w, t, rest, v, rfl, hw, ht, hv⟩
    have hnum : ∀ l, v = .num l → Lemmas.Json.Ends rest := by
      rintro l rfl
      rcases hv with h | ⟨_, h, _⟩ <;> cases h
    unfold readSpec
    rw [first_says hw ht hnum, Option.bind_some]
    exact Option.isSome_iff_exists.1 ((spec_isSome ht .zero).2 hv)

example : SpecJson (.obj [("Syscalls".toList, .arr [.str "open".toList]), ("more".toList, .num "1".toList)]) := by
  refine .inr ⟨_, rfl, fun e he => ?_⟩
  simp only [List.mem_cons, List.not_mem_nil, or_false] at he
  rcases he with rfl | rfl <;>
    refine ⟨fun h => ?_, fun h => ?_, fun h => ?_, fun h => ?_, fun h => ?_, fun h => ?_⟩ <;>
    first
    | (refine absurd h ?_; unfold Names; decide +kernel)
    | (exact .inr ⟨_, rfl, fun x hx => by rw [List.mem_singleton] at hx; exact .inr ⟨_, hx⟩⟩)

/-- These are refused: a text for a list, a number for a text, a fraction for a number, a duration without a unit,
an object that is cut off. -/
example : readSpec "{\"syscalls\":\"open\"}".toList = none ∧ readSpec "{\"syscalls\":[1]}".toList = none ∧
    readSpec "{\"sampleRate\":1.5}".toList = none ∧ readSpec "{\"duration\":\"5\"}".toList = none ∧
    readSpec "{\"syscalls\":[\"open\"".toList = none ∧ readSpec [] = none := by decide +kernel

end Swoll.Props.Wire
