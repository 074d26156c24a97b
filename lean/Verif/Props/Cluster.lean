import Verif.Lemmas.Cluster
import Verif.Props.JobArgs
/-
C120, C121: which pods a job watches, and which pods the server watches.
-/
namespace Swoll.Props.Cluster
open Swoll Swoll.Cluster Swoll.Spec.Cluster Swoll.Lemmas.Cluster
open Swoll.JobArgs (Str Rules validKey validValue labelChar setString)

/-! ### C120: a job watches exactly the pods its selectors select -/

/-- C120 (partial): the API server accepts the watch of a job, and it is about exactly the pods of the job's
namespace that its selectors select. Missing: selectors with match expressions, for which this is false
(`c120_violated`). -/
theorem c120_selected_partial {a : Api} {parent : Topology.Observer} {ns : String} {s : Sel} (hns : ns ≠ "")
    (hl : GoodLabels a s.label.matchLabels) (hf : GoodFields a s.field.matchLabels)
    (hx : s.label.matchExpressions = [] ∧ s.field.matchExpressions = []) :
    ∃ o f, jobObserver parent ns s = some o ∧ selects a o = some f ∧ ∀ p, f p = true ↔ Wants ns s p := by
  obtain ⟨f, h1, h2⟩ := selects_printed (a := a)
    (o := { parent with connected := false, ns := ns, labelSelector := String.ofList (setString s.label.matchLabels),
                        fieldSelector := String.ofList (setString s.field.matchLabels) }) hl hf rfl rfl
  refine ⟨_, f, rfl, h1, ?_⟩
  intro p
  rw [h2]
  unfold Wants Selects
  simp [hx.1, hx.2, hns]

/-- Labels of keys and values that Kubernetes accepts, and the fields pods can be selected by. -/
def someApi : Api :=
  { rules := ⟨fun k => !k.isEmpty, fun _ => true⟩
    field := fun k => ["metadata.name".toList, "spec.nodeName".toList, "status.phase".toList].contains k }

/-- The web servers of a node. -/
def someSel : Sel :=
  { label := ⟨[("app".toList, "nginx".toList), ("tier".toList, "web".toList)], []⟩
    field := ⟨[("spec.nodeName".toList, "node-1".toList)], []⟩ }

theorem someGood : GoodLabels someApi someSel.label.matchLabels ∧ GoodFields someApi someSel.field.matchLabels := by
  unfold GoodLabels GoodFields GoMap.NodupKeys
  exact ⟨⟨by decide +kernel, by decide +kernel⟩, ⟨by decide +kernel, by decide +kernel⟩⟩

example : someSel.label.matchExpressions = [] ∧ someSel.field.matchExpressions = [] := ⟨rfl, rfl⟩

/-- A web server on that node, and one elsewhere. -/
def somePod (node : String) : Pod :=
  ⟨"shop", "web-0", 1, [("tier".toList, "web".toList), ("app".toList, "nginx".toList)],
    [("spec.nodeName".toList, node.toList)], "Running"⟩

example : ∃ o f, jobObserver ⟨"", "", "", "swoll!=false", "", "", true⟩ "shop" someSel = some o ∧
    selects someApi o = some f ∧ f (somePod "node-1") = true ∧ f (somePod "node-2") = false := by
  obtain ⟨o, f, h1, h2, h3⟩ := c120_selected_partial (a := someApi) (ns := "shop") (s := someSel)
    (parent := ⟨"", "", "", "swoll!=false", "", "", true⟩) (by decide) someGood.1 someGood.2 ⟨rfl, rfl⟩
  refine ⟨o, f, h1, h2, (h3 _).2 ⟨rfl, ⟨?_, (fun e he => by cases he)⟩, ⟨?_, (fun e he => by cases he)⟩⟩, ?_⟩
  · intro k v h
    have hm := GoMap.mem_of_get h
    simp only [someSel, List.mem_cons, List.not_mem_nil, or_false, Prod.mk.injEq] at hm
    rcases hm with ⟨rfl, rfl⟩ | ⟨rfl, rfl⟩ <;> decide +kernel
  · intro k v h
    have hm := GoMap.mem_of_get h
    simp only [someSel, List.mem_cons, List.not_mem_nil, or_false, Prod.mk.injEq] at hm
    obtain ⟨rfl, rfl⟩ := hm
    decide +kernel
  · rw [Bool.eq_false_iff]
    intro h
    have := ((h3 _).1 h).2.2.1 "spec.nodeName".toList "node-1".toList (by decide +kernel)
    revert this
    decide +kernel

/-- C120 violated: match expressions are not looked at. A pod that has the labels and fields of a trace is
watched although the expressions of the trace exclude it. -/
theorem c120_violated {a : Api} {parent : Topology.Observer} {ns : String} {s : Sel} (hns : ns ≠ "")
    (hl : GoodLabels a s.label.matchLabels) (hf : GoodFields a s.field.matchLabels) {p : Pod}
    (hp : Wants ns ⟨⟨s.label.matchLabels, []⟩, ⟨s.field.matchLabels, []⟩⟩ p) (_ : ¬ Wants ns s p) :
    ∃ o f, jobObserver parent ns s = some o ∧ selects a o = some f ∧ f p = true := by
  obtain ⟨o, f, h1, h2, h3⟩ := c120_selected_partial (a := a) (parent := parent) (ns := ns)
    (s := ⟨⟨s.label.matchLabels, []⟩, ⟨s.field.matchLabels, []⟩⟩) hns hl hf ⟨rfl, rfl⟩
  exact ⟨o, f, h1, h2, (h3 p).2 hp⟩

/-- "All nginx pods that are not in the web tier." -/
def notWeb : Sel :=
  { label := ⟨[("app".toList, "nginx".toList)], [⟨"tier".toList, .notIn, ["web".toList]⟩]⟩, field := ⟨[], []⟩ }

example : Wants "shop" ⟨⟨notWeb.label.matchLabels, []⟩, ⟨notWeb.field.matchLabels, []⟩⟩ (somePod "node-1") ∧
    ¬ Wants "shop" notWeb (somePod "node-1") := by
  constructor
  · refine ⟨rfl, ⟨?_, (fun e he => by cases he)⟩, ⟨(fun k v h => by cases h), (fun e he => by cases he)⟩⟩
    intro k v h
    have hk : k = "app".toList := by
      have := (GoMap.mem_keys_iff _ _).2 (by rw [h]; rfl)
      simpa [notWeb, GoMap.keys] using this
    subst hk
    rw [← h]
    decide +kernel
  · rintro ⟨-, ⟨-, h⟩, -⟩
    have := h ⟨"tier".toList, .notIn, ["web".toList]⟩ (by simp [notWeb])
    exact this "web".toList (by simp) (by decide +kernel)

theorem nodup_labelsMap {r : Rules} {str : Str} {m : GoMap Str Str} (h : JobArgs.labelsMap r str = some m) :
    m.NodupKeys := by
  unfold JobArgs.labelsMap at h
  split at h
  · injection h with h; subst h; exact GoMap.nodupKeys_nil
  · have : ∀ (l : List Str) (m0 m : GoMap Str Str), m0.NodupKeys →
        l.foldlM (fun m s => (JobArgs.label r s).map fun e => m.set e.1 e.2) m0 = some m → m.NodupKeys := by
      intro l
      induction l with
      | nil => intro m0 m h0 h; injection h with h; subst h; exact h0
      | cons s l ih =>
        intro m0 m h0 h
        rw [List.foldlM_cons] at h
        cases hs : JobArgs.label r s with
        | none => rw [hs] at h; cases h
        | some e =>
          rw [hs] at h
          exact ih _ m (GoMap.nodupKeys_set h0 _ _) h
    exact this _ _ _ GoMap.nodupKeys_nil h

/-- C120 (partial), from the resource on: the job that the controller and its client make of a trace resource
watches exactly the pods that the labels and fields of the resource select. (One endpoint and at most one
host, as for C72.) Missing: match expressions. -/
theorem c120_resource_partial {a : Api} {t : JobArgs.Spec} {h p ns jobid : Str} {n : Int} {parent : Topology.Observer}
    (hh : ':' ∉ h) (hq : '"' ∉ h ∧ '"' ∉ p) (hp : JobArgs.atoi p = some n) (hns : ns ≠ [])
    (hhosts : t.hosts = [] ∨ ∃ host, t.hosts = [host] ∧ host ≠ [] ∧ '"' ∉ host)
    (hsc : ∀ sc ∈ t.syscalls, ',' ∉ sc ∧ '"' ∉ sc) (hsc' : t.syscalls ≠ [[]])
    (hl : GoodLabels a t.labels) (hf : GoodFields a t.fields)
    (hfv : ∀ e ∈ t.fields, validKey a.rules e.1 = true ∧ validValue a.rules e.2 = true) :
    ∃ req o f, JobArgs.clientCreate a.rules (JobArgs.jobArgs [h ++ ':' :: p] ns jobid t) = .ok req ∧
      jobObserver parent (String.ofList req.ns) ⟨⟨req.spec.labels, []⟩, ⟨req.spec.fields, []⟩⟩ = some o ∧
      selects a o = some f ∧
      ∀ pod, f pod = true ↔ Wants (String.ofList ns) ⟨⟨t.labels, []⟩, ⟨t.fields, []⟩⟩ pod := by
  obtain ⟨req, h1, -, h3, -, -, -, h7, h8⟩ := Props.JobArgs.c72_as_written_partial (r := a.rules) (t := t)
    (jobid := jobid) hh hq hp hns hhosts hsc hsc' hl.1 hl.2 hf.1 hfv
  have hm : ∃ x y, JobArgs.labelsMap a.rules x = some req.spec.labels ∧
      JobArgs.labelsMap a.rules y = some req.spec.fields := by
    have h := h1
    unfold JobArgs.clientCreate at h
    split at h
    · split at h
      · cases h
      · cases h
      · split at h
        · cases h
        · split at h
          · next _ _ e1 e2 =>
            injection h with h
            subst h
            exact ⟨_, _, e1, e2⟩
          · cases h
    · cases h
  obtain ⟨x, y, hx, hy⟩ := hm
  have nx := nodup_labelsMap hx
  have ny := nodup_labelsMap hy
  have gl : GoodLabels a req.spec.labels := by
    refine ⟨nx, fun e he => hl.2 e ?_⟩
    have := GoMap.get_of_mem nx (k := e.1) (v := e.2) he
    rw [h7] at this
    exact GoMap.mem_of_get this
  have gf : GoodFields a req.spec.fields := by
    refine ⟨ny, fun e he => hf.2 e ?_⟩
    have := GoMap.get_of_mem ny (k := e.1) (v := e.2) he
    rw [h8] at this
    exact GoMap.mem_of_get this
  have hne : String.ofList ns ≠ "" := by
    intro h
    apply hns
    have := congrArg String.toList h
    simpa using this
  obtain ⟨o, f, o1, o2, o3⟩ := c120_selected_partial (a := a) (parent := parent) (ns := String.ofList ns)
    (s := ⟨⟨req.spec.labels, []⟩, ⟨req.spec.fields, []⟩⟩) hne gl gf ⟨rfl, rfl⟩
  refine ⟨req, o, f, h1, by rw [h3]; exact o1, o2, ?_⟩
  intro pod
  rw [o3]
  unfold Wants Selects
  simp only [h7, h8]

example : (∀ e ∈ someSel.field.matchLabels,
    validKey someApi.rules e.1 = true ∧ validValue someApi.rules e.2 = true) := by decide +kernel

/-! ### C121: the pods the server watches -/

/-- C121: the server watches exactly the pods of the cluster that are not labelled `swoll=false`. -/
theorem c121_watched {a : Api} (hk : a.rules.key "swoll".toList = true) (hv : a.rules.value "false".toList = true)
    (cri config root : String) :
    ∃ o f, serverObserver cri config root = some o ∧ selects a o = some f ∧
      ∀ p, f p = true ↔ p.labels.get "swoll".toList ≠ some "false".toList := by
  have h1 : reqs (labelReq a.rules) "swoll!=false".toList = some [.ne "swoll".toList "false".toList] := by
    have hs : JobArgs.split ',' "swoll!=false".toList = ["swoll!=false".toList] := by decide +kernel
    have hl : labelReq a.rules "swoll!=false".toList = some (.ne "swoll".toList "false".toList) := by
      unfold labelReq
      rw [if_neg (by decide +kernel)]
      have e1 : "swoll!=false".toList.takeWhile labelChar = "swoll".toList := by decide +kernel
      have e2 : "swoll!=false".toList.dropWhile labelChar = '!' :: '=' :: "false".toList := by decide +kernel
      have e3 : validKey a.rules "swoll".toList = true := by
        unfold validKey; rw [hk]; decide +kernel
      have e4 : validValue a.rules "false".toList = true := by
        unfold validValue; rw [hv]; decide +kernel
      rw [e1, e2]
      simp only [e3, if_true, e4]
    unfold reqs
    rw [if_neg (by decide +kernel), hs, List.mapM_cons, hl]
    rfl
  have h2 : reqs (fieldReq a) "".toList = some [] := rfl
  refine ⟨⟨cri, config, "", "swoll!=false", "", root, false⟩,
    fun p => Req.labels p.labels (.ne "swoll".toList "false".toList), rfl, ?_, ?_⟩
  · unfold selects
    simp only [h1, h2]
    simp
  · intro p; simp [Req.labels]

example : someApi.rules.key "swoll".toList = true ∧ someApi.rules.value "false".toList = true := by
  decide +kernel

/-- C121 violated: the pods that the controller starts for a trace are meant to carry the label, but the labels
are replaced after they are set; whatever the name of the trace, the server watches its pods. -/
theorem c121_client_pods_violated {a : Api} (hk : a.rules.key "swoll".toList = true)
    (hv : a.rules.value "false".toList = true) (cri config root : String) (trace : Str) :
    templateLabels.get "swoll".toList = some "false".toList ∧
    ∃ o f, serverObserver cri config root = some o ∧ selects a o = some f ∧
      ∀ p : Pod, p.labels = clientPodLabels trace → f p = true := by
  refine ⟨by decide +kernel, ?_⟩
  obtain ⟨o, f, h1, h2, h3⟩ := c121_watched hk hv cri config root
  refine ⟨o, f, h1, h2, ?_⟩
  intro p hp
  rw [h3, hp]
  unfold clientPodLabels relabel
  rw [GoMap.get_set_other _ _ (by decide +kernel)]
  simp

end Swoll.Props.Cluster
