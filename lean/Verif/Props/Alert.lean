import Verif.Lemmas.Alert
/-
C45, C46, C66: the alert queue and the alert parser.
-/
namespace Swoll.Props.Alert
open Swoll Swoll.Alert Swoll.Spec.Alert Swoll.Lemmas.Alert

/-! ### C45 -/

/-- C45: after any history in which pushed alerts are not changed afterwards, a pair is queued
exactly when the last push about it was firing, a source has a table exactly when something
fires for it, and no table is empty. -/
theorem c45_queue (heap : Heap) (ops : List Op) (hu : Untouched ops) :
    (∀ s sc, Queued (run (init heap) ops).1.q s sc ↔ fires (pushed heap ops) s sc = true) ∧
    (∀ s, GoMap.has (run (init heap) ops).1.q s = true ↔ ∃ sc, fires (pushed heap ops) s sc = true) ∧
    (∀ s t, GoMap.get (run (init heap) ops).1.q s = some t → t ≠ []) := by
  have hi := inv_run heap ops hu
  refine ⟨?_, ?_, hi.full⟩
  · intro s sc
    rw [← hi.fir]
    unfold Queued entry GoMap.has
    constructor
    · rintro ⟨t, h1, h2⟩; rw [h1]; exact h2
    · intro h
      cases hg : GoMap.get (run (init heap) ops).1.q s with
      | none => rw [hg] at h; cases h
      | some t => rw [hg] at h; exact ⟨t, rfl, h⟩
  · intro s
    rw [has_iff hi, active_iff]
    simp

/-! ### C46 -/

/-- C46: the callbacks of a push are exactly the transitions it causes: for a firing alert,
"new" when nothing fired for the source and "add" when the pair did not fire; for a resolved
alert of a firing pair, "delete" and then, when nothing else fires for the source, "drop". -/
theorem c46_transitions (heap : Heap) (ops : List Op) (r : Nat) (a : Alert) (hu : Untouched ops)
    (ha : (run (init heap) ops).1.heap r = a) :
    (step (run (init heap) ops).1 (.push r)).2 =
      match a.info.status with
      | .firing => (if active (pushed heap ops) a.source then [] else [.new a.source]) ++
          (if fires (pushed heap ops) a.source a.info.syscall then [] else [.add a.source a.info])
      | .resolved => if fires (pushed heap ops) a.source a.info.syscall then
          .del a.source a.info ::
            (if active (pushed heap ops) a.source [a.info.syscall] then [] else [.drop a.source])
        else []
      | .unknown => [] := by
  have := (push_spec (inv_run heap ops hu) r).2
  rw [ha] at this
  exact this

/-- `active` is what it should be. -/
theorem c46_active_iff (as : List Alert) (s : Source) (ex : List String) :
    active as s ex = true ↔ ∃ sc, sc ∉ ex ∧ fires as s sc = true := active_iff as s ex

/-- C46: a consumer that knows only the callbacks can keep an exact copy: no call ever
contradicts the copy (nothing is added or dropped twice, no delete without an add, no drop of
a source with entries), and after any history the copy holds exactly what fires. -/
theorem c46_mirror (heap : Heap) (ops : List Op) (hu : Untouched ops) :
    ∃ m, mirrorAll [] (run (init heap) ops).2.flatten = some m ∧
      (∀ s, GoMap.has m s = true ↔ ∃ sc, fires (pushed heap ops) s sc = true) ∧
      (∀ s l, GoMap.get m s = some l → ∀ sc, sc ∈ l ↔ fires (pushed heap ops) s sc = true) := by
  suffices h : ∃ m, mirrorAll [] (run (init heap) ops).2.flatten = some m ∧ Agrees m (pushed heap ops) by
    obtain ⟨m, h1, h2, h3⟩ := h
    refine ⟨m, h1, ?_, h3⟩
    intro s
    rw [h2, active_iff]; simp
  induction ops using Swoll.ListX.snoc_induction with
  | h0 => exact ⟨[], rfl, fun _ => rfl, fun _ _ h => nomatch h⟩
  | h1 ops o ih =>
    obtain ⟨h1, _, _⟩ := untouched_append ops [o] hu
    obtain ⟨m, hm, hag⟩ := ih h1
    rw [run_append, List.flatten_append, mirrorAll_append, hm, Option.bind_some,
      show heap = (init heap).heap from rfl, pushed_append]
    cases o with
    | write r x => exact ⟨m, rfl, by simpa [pushed, init] using hag⟩
    | push r =>
      obtain ⟨m', e, h⟩ := mirror_push (inv_run heap ops h1) r m hag
      refine ⟨m', ?_, h⟩
      simp only [run, step, List.flatten_cons, List.flatten_nil, List.append_nil]
      exact e

/-- An alert for the examples. -/
def alert (st : Status) (sc : String) : Alert := ⟨⟨st, "n", "h", sc, "u"⟩, ⟨"default", "pod", "web"⟩⟩

/-- Without the contract C45 and C46 fail: an alert object reused by the caller (set to
resolved and pushed again) leaves without its delete callback, and one whose syscall was
changed stays queued for ever. -/
theorem c46_reused_alert_violated :
    (run (init (fun _ => alert .firing "open")) [.push 0, .write 0 (alert .resolved "open"), .push 0]).2 =
      [[.new ⟨"default", "pod", "web"⟩, .add ⟨"default", "pod", "web"⟩ (alert .firing "open").info], [],
       [.drop ⟨"default", "pod", "web"⟩]] ∧
    (run (init (fun _ => alert .firing "open")) [.push 0, .write 0 (alert .firing "read"), .write 1 (alert .resolved "open"),
      .push 1]).1.q = [(⟨"default", "pod", "web"⟩, [("open", 0)])] := by
  decide +kernel

/-! ### C66 -/

/-- C66: parsing gives one alert per entry, in order, with the fields of the entry; labels
that are missing read as empty, and only the two known status words are recognised. -/
theorem c66_parse (l : List RawAlert) :
    ∃ as, parseAlerts (some l) = some as ∧ as.length = l.length ∧
    ∀ i (h : i < l.length) (h' : i < as.length),
      (as[i].info.status = .firing ↔ l[i].status = "firing") ∧
      (as[i].info.status = .resolved ↔ l[i].status = "resolved") ∧
      as[i].info.hash = l[i].fingerprint ∧ as[i].info.url = l[i].generatorURL ∧
      (∀ v, GoMap.get l[i].labels "alertname" = some v → as[i].info.name = v) ∧
      (∀ v, GoMap.get l[i].labels "syscall" = some v → as[i].info.syscall = v) ∧
      (∀ v, GoMap.get l[i].labels "namespace" = some v → as[i].source.ns = v) ∧
      (∀ v, GoMap.get l[i].labels "pod" = some v → as[i].source.pod = v) ∧
      (∀ v, GoMap.get l[i].labels "container" = some v → as[i].source.container = v) ∧
      (GoMap.get l[i].labels "syscall" = none → as[i].info.syscall = "") ∧
      (GoMap.get l[i].labels "pod" = none → as[i].source.pod = "") := by
  refine ⟨l.map parseSingle, rfl, by simp, ?_⟩
  intro i h h'
  rw [List.getElem_map]
  generalize l[i] = r
  refine ⟨?_, ?_, rfl, rfl, ?_, ?_, ?_, ?_, ?_, ?_, ?_⟩
  · simp only [parseSingle, parseStatus]
    by_cases h1 : r.status = "firing"
    · simp [h1]
    · by_cases h2 : r.status = "resolved" <;> simp [h1, h2]
  · simp only [parseSingle, parseStatus]
    by_cases h1 : r.status = "firing"
    · simp [h1]
    · by_cases h2 : r.status = "resolved" <;> simp [h2]
      simp [h1]
  all_goals (intros; simp_all [parseSingle])

/-! ### The hypotheses are met -/

/-- A history with two syscalls, a repetition, an unknown status and full resolution. -/
example :
    let ops : List Op := [.write 0 (alert .firing "open"), .push 0, .write 1 (alert .firing "read"), .push 1,
      .write 2 (alert .firing "open"), .push 2, .write 3 (alert .unknown "read"), .push 3,
      .write 4 (alert .resolved "open"), .push 4]
    Untouched ops ∧ fires (pushed (fun _ => alert .unknown "") ops) ⟨"default", "pod", "web"⟩ "read" = true ∧
    fires (pushed (fun _ => alert .unknown "") ops) ⟨"default", "pod", "web"⟩ "open" = false := by
  refine ⟨?_, by decide +kernel, by decide +kernel⟩
  simp [Untouched]

example : parseAlerts (some [⟨"firing", [("syscall", "open"), ("pod", "p")], "u", "f"⟩, ⟨"odd", [], "", ""⟩]) =
    some [⟨⟨.firing, "", "f", "open", "u"⟩, ⟨"", "p", ""⟩⟩, ⟨⟨.unknown, "", "", "", ""⟩, ⟨"", "", ""⟩⟩] := by
  decide +kernel

end Swoll.Props.Alert
