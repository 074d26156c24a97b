import Verif.Lemmas.Topology
/-
C20-C22: the container cache, its callbacks and the Kubernetes observer.
-/
namespace Swoll.Props.Topology
open Swoll Swoll.Topology Swoll.Spec.Topology Swoll.Lemmas.Topology

/-! ### C20 -/

/-- C20: after any sequence of observer events, looking up a pid namespace gives (a copy of)
the container of the last meaningful event for it if that was a start, and "not found"
otherwise. -/
theorem c20_lookup (cb : Bool) (evs : List (Option Event)) (ns : Int) :
    lookupContainer (run cb [] evs).1 ns = (resident evs ns).map Container.copy := by
  unfold lookupContainer
  rw [cache_resident]
  cases resident evs ns <;> rfl

/-- C20: the copy is the same container. -/
theorem c20_copy (c : Container) (h : GoMap.NodupKeys (c.labels.getD [])) : Same c.copy c := by
  refine ⟨rfl, rfl, rfl, rfl, rfl, rfl, rfl, rfl, ?_⟩
  intro k
  show GoMap.get (List.foldl _ [] _) k = _
  rw [get_foldl_set]
  exact last_get h k

/-- C20: malformed events change nothing and are reported with the matching error, and only
they are. -/
theorem c20_errors (cb : Bool) (cache : Cache) (ev : Option Event) :
    (processEvent cb cache ev).2.2 = complaint ev ∧
    (complaint ev ≠ none → (processEvent cb cache ev).1 = cache ∧ (processEvent cb cache ev).2.1 = []) := by
  cases hm : meaning ev with
  | none => rw [process_invalid cb cache ev hm]; simp
  | some bc =>
    rw [process_valid cb cache ev bc.1 bc.2 hm]
    have : complaint ev = none := (complaint_valid ev).2 (by rw [hm]; rfl)
    simp [this]

/-- C20: the errors logged by a run are those of its malformed events, in order. -/
theorem c20_error_log (cb : Bool) (evs : List (Option Event)) :
    (run cb [] evs).2.2 = evs.filterMap complaint := by
  suffices h : ∀ cache, (run cb cache evs).2.2 = evs.filterMap complaint from h []
  induction evs with
  | nil => intro _; rfl
  | cons e es ih =>
    intro cache
    simp only [run, ih, List.filterMap_cons, (c20_errors cb cache e).1]
    cases complaint e <;> rfl

/-! ### C21 -/

/-- C21: the callback is called exactly once per meaningful event, in order, with its type and
container. -/
theorem c21_calls (evs : List (Option Event)) :
    (run true [] evs).2.1.map (fun c => (c.type, c.container)) =
      (evs.filterMap meaning).map (fun m => (if m.1 then 0 else 1, m.2)) := by
  suffices h : ∀ cache, (run true cache evs).2.1.map (fun c => (c.type, c.container)) =
      (evs.filterMap meaning).map (fun m => (if m.1 then 0 else 1, m.2)) from h []
  induction evs with
  | nil => intro _; rfl
  | cons e es ih =>
    intro cache
    simp only [run, List.map_append, ih, List.filterMap_cons]
    cases hm : meaning e with
    | none => rw [process_invalid true cache e hm]; simp
    | some bc => rw [process_valid true cache e bc.1 bc.2 hm]; simp

/-- C21: a callback sees the cache after the update of its own event: for the n-th call, the
state after some prefix of the events ending in the event it is called for. -/
theorem c21_after_update (evs : List (Option Event)) (call : Call) (hc : call ∈ (run true [] evs).2.1) :
    ∃ pre ev post, evs = pre ++ ev :: post ∧ meaning ev = some (decide (call.type = 0), call.container) ∧
      ∀ ns, GoMap.get call.cache ns = resident (pre ++ [ev]) ns := by
  induction evs using Swoll.ListX.snoc_induction with
  | h0 => simp [run] at hc
  | h1 evs e ih =>
    rw [run_append, List.mem_append] at hc
    rcases hc with hc | hc
    · obtain ⟨pre, ev, post, h1, h2, h3⟩ := ih hc
      exact ⟨pre, ev, post ++ [e], by rw [h1]; simp, h2, h3⟩
    · refine ⟨evs, e, [], rfl, ?_⟩
      have hcache := fun ns => cache_resident true (evs ++ [e]) ns
      rw [run_append] at hcache
      simp only [run, List.append_nil] at hc hcache
      cases hm : meaning e with
      | none => rw [process_invalid true _ e hm] at hc; simp at hc
      | some bc =>
        rw [process_valid true _ e bc.1 bc.2 hm] at hc hcache
        simp only [if_true, List.mem_singleton] at hc
        subst hc
        refine ⟨?_, hcache⟩
        obtain ⟨b, c⟩ := bc
        cases b <;> simp

/-! ### C22 -/

/-- C22: the containers of a pod are exactly those the runtime lists with the pod's name and
namespace in their labels and whose process and pid namespace can be resolved. -/
theorem c22_listing (p : Pod) (cri : List CriContainer) (k : Container) (hn : p.name ≠ "") (hs : p.ns ≠ "") :
    k ∈ containersForPod p (some cri) ↔ ∃ c ∈ cri, ownedBy p c ∧ ∃ pid pidns, c.pid = some pid ∧ c.pidns = some pidns ∧
      k = { id := c.id, pod := p.name, sandbox := "", name := label c "io.kubernetes.container.name", image := c.image,
            ns := p.ns, labels := some c.labels, pid := pid, pidns := pidns } := by
  unfold containersForPod criContainers
  simp only [Option.map_some, Option.getD_some, List.mem_filterMap]
  constructor
  · rintro ⟨c, hc, h⟩; exact ⟨c, hc, (criOne_some p c k hn hs).1 h⟩
  · rintro ⟨c, hc, h⟩; exact ⟨c, hc, (criOne_some p c k hn hs).2 h⟩

/-- C22: asked for all containers, the observer lists exactly those of the runtime whose process and pid
namespace can be resolved, in the runtime's order, with the pod, namespace and name of their labels; it
fails exactly if the runtime does. -/
theorem c22_all (cri : Option (List CriContainer)) :
    (containers cri = none ↔ cri = none) ∧
    ∀ l, cri = some l → ∃ ks, containers cri = some ks ∧
      ks.map (·.id) = (l.filter (fun c => c.pid.isSome && c.pidns.isSome)).map (·.id) ∧
      ∀ k, k ∈ ks ↔ ∃ c ∈ l, ∃ pid pidns, c.pid = some pid ∧ c.pidns = some pidns ∧
        k = { id := c.id, pod := label c "io.kubernetes.pod.name", sandbox := "",
              name := label c "io.kubernetes.container.name", image := c.image,
              ns := label c "io.kubernetes.pod.namespace", labels := some c.labels, pid := pid, pidns := pidns } := by
  unfold containers criContainers
  refine ⟨by cases cri <;> simp, ?_⟩
  rintro l rfl
  refine ⟨_, rfl, ?_, ?_⟩
  · induction l with
    | nil => rfl
    | cons c l ih =>
      dsimp only at ih ⊢
      rw [List.filterMap_cons, List.filter_cons]
      obtain ⟨id, image, labels, pid, pidns⟩ := c
      cases pid <;> cases pidns <;> simp [criOne, ih]
  · intro k
    simp only [List.mem_filterMap]
    refine exists_congr fun c => and_congr_right fun _ => ?_
    obtain ⟨id, image, labels, pid, pidns⟩ := c
    cases pid <;> cases pidns <;> simp [criOne, eq_comm, label]

/-- One container of a pod and one whose process is gone. -/
example : (containers (some [⟨"a", "i", [("io.kubernetes.pod.name", "p")], some 7, some 40⟩,
    ⟨"b", "i", [], none, none⟩])).map (·.map fun k => (k.id, k.pod)) = some [("a", "p")] := by decide +kernel

/-- C22: additions and updates announce: every container of an added pod, every container of a
pod going from Pending to Running, and nothing for any other update. -/
theorem c22_starts (pc : GoMap String (List Container)) :
    (∀ p cri, (observe pc (.add p cri)).2 = (containersForPod p cri).map start) ∧
    (∀ old new cri, (observe pc (.update old new cri)).2 =
      if old.phase = "Pending" ∧ new.phase = "Running" then (containersForPod new cri).map start else []) := by
  constructor
  · intro p cri; rfl
  · intro old new cri; rfl

/-- What happens on a deletion: stops are sent for the containers remembered from the first
steady update since the pod's previous deletion, or, if there are none, for those still found
running. -/
theorem c22_stops_actual (notes : List Note) (p : Pod) (cri : Option (List CriContainer))
    (hd : ∀ n ∈ notes, '.' ∉ (about n).2.toList) (hp : '.' ∉ p.ns.toList) :
    (observe (cacheAfter notes) (.delete p cri)).2 =
      ((remembered notes (p.name, p.ns)).getD (containersForPod p cri)).map stop := by
  have := cacheAfter_get notes hd (p.name, p.ns) hp
  simp only [observe]
  have hk : podKey p = p.name ++ "." ++ p.ns := rfl
  rw [hk, this]
  cases remembered notes (p.name, p.ns) <;> rfl

/-- C22 (partial): a pod whose containers stay the same (and resolvable) from the first
steady update on gets one stop for each of them when it is deleted.  Missing: pods whose
containers change while running, pods that terminate without deletion and pods deleted before
any steady update; for these the claim is false (`c22_violated`). -/
theorem c22_stops_partial (notes : List Note) (p : Pod) (cri : Option (List CriContainer)) (l : List Container)
    (hd : ∀ n ∈ notes, '.' ∉ (about n).2.toList) (hp : '.' ∉ p.ns.toList) (hl : l ≠ [])
    (hsame : ∀ n ∈ notes, about n = (p.name, p.ns) → found n = l)
    (hseen : (∃ pre n post, notes = pre ++ n :: post ∧ about n = (p.name, p.ns) ∧ isSteady n = true ∧
        ∀ n' ∈ post, about n' = (p.name, p.ns) → isDelete n' = false) ∨
      containersForPod p cri = l) :
    (observe (cacheAfter notes) (.delete p cri)).2 = l.map stop := by
  rw [c22_stops_actual notes p cri hd hp]
  have hrem : remembered notes (p.name, p.ns) = none ∨ remembered notes (p.name, p.ns) = some l := by
    clear hd hseen
    unfold remembered
    induction notes using Swoll.ListX.snoc_induction with
    | h0 => exact Or.inl rfl
    | h1 notes n ih =>
      rw [List.foldl_append]
      simp only [List.foldl_cons, List.foldl_nil]
      have ih := ih (fun x hx => hsame x (by simp [hx]))
      split
      · rename_i hab
        split
        · exact Or.inl rfl
        · split
          · rw [hsame n (by simp) hab]; exact Or.inr rfl
          · exact ih
      · exact ih
  rcases hseen with ⟨pre, n, post, he, hab, hst, hpost⟩ | hf
  · have : remembered notes (p.name, p.ns) ≠ none := by
      rw [he]
      unfold remembered
      rw [List.foldl_append, List.foldl_cons]
      have hdel : isDelete n = false := by cases n <;> first | rfl | simp [isSteady] at hst
      have hne : found n ≠ [] := by rw [hsame n (by rw [he]; simp) hab]; exact hl
      rw [if_pos hab, if_neg (by simp [hdel])]
      generalize List.foldl _ none pre = acc
      have hstart : ∃ x, (if isSteady n = true ∧ acc = none ∧ found n ≠ [] then some (found n) else acc) = some x := by
        cases acc with
        | none => simp [hst, hne]
        | some x => simp
      obtain ⟨x, hx⟩ := hstart
      rw [hx]
      clear hx he
      induction post generalizing x with
      | nil => simp
      | cons y ys ih =>
        rw [List.foldl_cons]
        by_cases hy : about y = (p.name, p.ns)
        · rw [if_pos hy, hpost y (by simp) hy]
          simp only [Bool.false_eq_true, if_false, reduceCtorEq, false_and, and_false]
          exact ih (fun z hz => hpost z (by simp [hz])) x
        · rw [if_neg hy]
          exact ih (fun z hz => hpost z (by simp [hz])) x
    rcases hrem with h | h
    · exact absurd h this
    · rw [h]; rfl
  · rcases hrem with h | h
    · rw [h, hf]; rfl
    · rw [h]; rfl

/-- A pod with one container in pid namespace `ns`. -/
def demoPod (phase : String) : Pod := ⟨"p", "default", phase⟩
def demoCri (id : String) (ns : Int) : Option (List CriContainer) :=
  some [⟨id, "img", [("io.kubernetes.pod.name", "p"), ("io.kubernetes.pod.namespace", "default"),
    ("io.kubernetes.container.name", "web")], some 100, some ns⟩]

/-- Event types and pid namespaces. -/
def brief (out : List (List Event)) : List (List (Int × Int)) :=
  out.map (·.map (fun e => (e.type, (e.container.map (·.pidns)).getD 0)))

/-- C22 violated: (1) a container that restarts in a running pod is never announced, and the
deletion stops the old one; (2) a pod deleted after its containers are gone, without a steady
update before, stops nothing; (3) a pod that terminates stops nothing; (4) a pod added while
Pending with a container already running announces it twice. -/
theorem c22_violated :
    brief (observeAll [] [.add (demoPod "Running") (demoCri "a" 5000),
      .update (demoPod "Running") (demoPod "Running") (demoCri "a" 5000),
      .update (demoPod "Running") (demoPod "Running") (demoCri "b" 6000),
      .delete (demoPod "Running") (some [])]) = [[(0, 5000)], [], [], [(1, 5000)]] ∧
    brief (observeAll [] [.add (demoPod "Running") (demoCri "a" 5000), .delete (demoPod "Running") (some [])])
      = [[(0, 5000)], []] ∧
    brief (observeAll [] [.add (demoPod "Running") (demoCri "a" 5000),
      .update (demoPod "Running") (demoPod "Succeeded") (some [])]) = [[(0, 5000)], []] ∧
    brief (observeAll [] [.add (demoPod "Pending") (demoCri "a" 5000),
      .update (demoPod "Pending") (demoPod "Running") (demoCri "a" 5000)]) = [[(0, 5000)], [(0, 5000)]] := by
  decide +kernel

/-! ### C65 -/

/-- C65: the observer derived for a job watches the job's namespace with the job's selectors,
keeps every other setting of its parent and shares no connection with it; deriving it cannot
fail. -/
theorem c65_job_observer (k : Observer) (ns labels fields : String) :
    jobObserver k ns labels fields =
      some { criSocket := k.criSocket, kubeConfig := k.kubeConfig, ns := ns, labelSelector := labels,
             fieldSelector := fields, procRoot := k.procRoot, connected := false } := rfl

/-- The value a list of options leaves in a field read by `get`: of the last option setting
it, else of the parent. -/
theorem c65_last_option_wins (k k' : Observer) (opts : List Option') (h : copyObserver k opts = some k') :
    k'.ns = ((opts.filterMap (fun o => match o with | .namespace s => some s | _ => none)).getLast?).getD k.ns ∧
    k'.labelSelector = ((opts.filterMap (fun o => match o with | .labels s => some s | _ => none)).getLast?).getD k.labelSelector ∧
    k'.fieldSelector = ((opts.filterMap (fun o => match o with | .fields s => some s | _ => none)).getLast?).getD k.fieldSelector ∧
    k'.procRoot = ((opts.filterMap (fun o => match o with | .procRoot s => some s | _ => none)).getLast?).getD k.procRoot ∧
    k'.kubeConfig = ((opts.filterMap (fun o => match o with | .config s => some s | _ => none)).getLast?).getD k.kubeConfig ∧
    k'.criSocket = ((opts.filterMap (fun o => match o with | .cri s _ => some s | _ => none)).getLast?).getD k.criSocket ∧
    k'.connected = false := by
  unfold copyObserver at h
  have gl : ∀ (s : String) (l : List String) (d : String), ((s :: l).getLast?).getD d = (l.getLast?).getD s := by
    intro s l d
    cases l with
    | nil => rfl
    | cons a as => simp [List.getLast?_cons]
  have main : ∀ (opts : List Option') (k : Observer), applyOpts k opts = some k' →
      k'.ns = ((opts.filterMap (fun o => match o with | .namespace s => some s | _ => none)).getLast?).getD k.ns ∧
      k'.labelSelector = ((opts.filterMap (fun o => match o with | .labels s => some s | _ => none)).getLast?).getD k.labelSelector ∧
      k'.fieldSelector = ((opts.filterMap (fun o => match o with | .fields s => some s | _ => none)).getLast?).getD k.fieldSelector ∧
      k'.procRoot = ((opts.filterMap (fun o => match o with | .procRoot s => some s | _ => none)).getLast?).getD k.procRoot ∧
      k'.kubeConfig = ((opts.filterMap (fun o => match o with | .config s => some s | _ => none)).getLast?).getD k.kubeConfig ∧
      k'.criSocket = ((opts.filterMap (fun o => match o with | .cri s _ => some s | _ => none)).getLast?).getD k.criSocket ∧
      k'.connected = k.connected := by
    intro opts
    induction opts with
    | nil => intro k h; simp only [applyOpts, Option.some.injEq] at h; subst h; exact ⟨rfl, rfl, rfl, rfl, rfl, rfl, rfl⟩
    | cons o os ih =>
      intro k h
      cases o with
      | cri s ok =>
        cases ok with
        | false => simp [applyOpts, applyOpt] at h
        | true =>
          simp only [applyOpts, applyOpt, if_true] at h
          have := ih _ h
          simpa only [List.filterMap_cons, gl] using this
      | _ =>
        simp only [applyOpts, applyOpt] at h
        have := ih _ h
        simpa only [List.filterMap_cons, gl] using this
  exact main opts _ h

/-! ### The hypotheses are met -/

def ctr (name : String) (ns : Int) : Container := ⟨"id-" ++ name, "pod", "", name, "img", "default", none, 7, ns⟩

/-- A run with malformed events, a restart and a stop. -/
example :
    let evs : List (Option Event) := [some ⟨0, some (ctr "a" 10)⟩, none, some ⟨0, none⟩, some ⟨0, some (ctr "x" 0)⟩,
      some ⟨0, some (ctr "b" 10)⟩, some ⟨1, some (ctr "c" 11)⟩, some ⟨2, some (ctr "d" 12)⟩, some ⟨0, some (ctr "e" 12)⟩]
    resident evs 10 = some (ctr "b" 10) ∧ resident evs 11 = none ∧
    (run true [] evs).2.2 = [.nilEvent, .nilContainer, .badNamespace, .unknownType] ∧
    (run true [] evs).2.1.map (fun c => c.container.name) = ["a", "b", "c", "e"] := by
  decide +kernel

/-- Two containers sharing a pid namespace: the stop of one forgets the other (C20 speaks of
the last event for a namespace). -/
example : resident [some ⟨0, some (ctr "a" 10)⟩, some ⟨0, some (ctr "b" 10)⟩, some ⟨1, some (ctr "b" 10)⟩] 10 = none := by
  decide +kernel

/-- The partial stop theorem applies to an ordinary life of a pod. -/
example :
    let notes : List Note := [.add (demoPod "Pending") (demoCri "a" 5000),
      .update (demoPod "Pending") (demoPod "Running") (demoCri "a" 5000),
      .update (demoPod "Running") (demoPod "Running") (demoCri "a" 5000)]
    (∀ n ∈ notes, '.' ∉ (about n).2.toList) ∧
    (∀ n ∈ notes, found n = containersForPod (demoPod "") (demoCri "a" 5000)) ∧
    containersForPod (demoPod "") (demoCri "a" 5000) ≠ [] ∧
    isSteady (.update (demoPod "Running") (demoPod "Running") (demoCri "a" 5000)) = true := by
  decide +kernel

example : GoMap.NodupKeys (([("app", "web"), ("tier", "front")] : GoMap String String)) := by
  unfold GoMap.NodupKeys; decide

end Swoll.Props.Topology
