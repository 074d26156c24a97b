import Verif.Props.Wire
import Verif.Spec.Answers
/-
C138: the answers of the server have the status and the JSON that are meant, and are labelled as JSON.
C139: a client whose request is refused is told the reason.
-/
namespace Swoll.Props.Answers
open Swoll Swoll.Answers Swoll.Spec.Answers Swoll.Spec.Json Swoll.Spec.Wire
open Swoll.Json (Str Json)
open Swoll.Lemmas.Wire Swoll.Lemmas.Json

/-! ### Helpers -/

theorem fine_error (why : Str) : Fine (ofError why) := fineMembers (fine_opt (by unfold Fine; trivial))

theorem ofError_eq {why : Str} (h : why ≠ []) : ofError why = .obj [("error".toList, .str why)] := by
  cases why with
  | nil => exact absurd rfl h
  | cons => rfl

theorem errorHandler_seen (g : Str → Str) (code : Nat) (why : Str) (h : why ≠ []) :
    Refuses (seen g (errorHandler fresh code why)) code why := by
  have hs : Says (ofError why).text _ := text_says _ (fine_error why)
  rw [ofError_eq h] at hs
  refine ⟨rfl, ?_⟩
  show Says ([] ++ (ofError why).text) _
  rw [List.nil_append, ofError_eq h]
  exact hs

theorem successHandler_seen (g : Str → Str) (code : Nat) (v : Json) (h : Fine v) :
    Answers (seen g (successHandler fresh code v)) code v := by
  refine ⟨rfl, ?_⟩
  show Says ([] ++ v.pretty 0) v
  exact pretty_says 0 v h

/-- The status lines are no formats. -/
theorem statusLine_plain (code : Nat) : '%' ∉ statusLine code := by
  unfold statusLine
  rw [List.mem_append, List.mem_cons]
  rintro (h | h | h)
  · rw [Nat.toString_eq_ofList_toDigits, String.toList_ofList] at h
    have := Nat.isDigit_of_mem_toDigits (b := 10) (by decide) (by decide) h
    exact absurd this (by decide)
  · exact absurd h (by decide)
  · unfold statusText at h
    split at h <;> revert h <;> decide

theorem says_ne_B {r : Str} {c : Char} {v : Json} (hc : c ≠ 'n' ∧ c ≠ 't' ∧ c ≠ 'f' ∧ c ≠ '"' ∧ c ≠ '[' ∧ c ≠ '{' ∧ c ≠ '-' ∧ Json.isDigit c = false) :
    ¬ Says (c :: r) v := by
  intro h
  generalize ht : c :: r = t at h
  obtain ⟨h1, h2, h3, h4, h5, h6, h7, h8⟩ := hc
  cases h with
  | null => exact h1 (List.cons.inj ht).1
  | yes => exact h2 (List.cons.inj ht).1
  | no => exact h3 (List.cons.inj ht).1
  | num hn =>
    obtain ⟨d, r', rfl, h⟩ := number_head hn
    rw [← (List.cons.inj ht).1, h8] at h
    rcases h with h | h
    · exact h7 h
    · cases h
  | str h => obtain ⟨b, -, rfl⟩ := h; exact h4 (List.cons.inj ht).1
  | empty => exact h5 (List.cons.inj ht).1
  | arr => exact h5 (List.cons.inj ht).1
  | none => exact h6 (List.cons.inj ht).1
  | obj => exact h6 (List.cons.inj ht).1

/-! ### C138 -/

/-- A create request is answered with the trace that is made of it, or with the reason why there is none. -/
theorem c138_create_partial (g : Str → Str) (ns body id why : Str) (hw : why ≠ []) :
    (ns = [] → ∀ taken, Refuses (seen g (createHandler ns body id why taken)) 404 "namespace not found".toList) ∧
    (ns ≠ [] → Wire.readSpec body = none → ∀ taken, Refuses (seen g (createHandler ns body id why taken)) 400 why) ∧
    ∀ s, ns ≠ [] → Wire.readSpec body = some s →
      Refuses (seen g (createHandler ns body id why true)) 500
        ("trace job ".toList ++ id ++ " already running".toList) ∧
      Answers (seen g (createHandler ns body id why false)) 201
        (.obj [("id".toList, .str id), ("traceSpec".toList, Wire.ofTrace (Wire.created ns id s))]) := by
  refine ⟨fun h taken => ?_, fun h hb taken => ?_, fun s h hb => ⟨?_, ?_⟩⟩
  · unfold createHandler; rw [if_pos h]
    exact errorHandler_seen g _ _ (by decide)
  · unfold createHandler; rw [if_neg h, hb]
    exact errorHandler_seen g _ _ hw
  · unfold createHandler; rw [if_neg h, hb]
    exact errorHandler_seen g _ _ (by unfold alreadyRunning; simp)
  · unfold createHandler; rw [if_neg h, hb]
    exact successHandler_seen g _ _ (fine_ofJob _ _)

/-- A request to delete a job is answered with OK, or with the reason why it is not deleted. -/
theorem c138_delete_partial (g : Str → Str) (e : Str) (he : e ≠ []) :
    Answers (seen g (deleteHandler true none)) 200 (.str "OK".toList) ∧
    Refuses (seen g (deleteHandler true (some e))) 500 e ∧
    ∀ err, Refuses (seen g (deleteHandler false err)) 404 "job not found".toList :=
  ⟨successHandler_seen g _ _ (by unfold Fine; trivial), errorHandler_seen g _ _ he, fun _ => errorHandler_seen g _ _ (by decide)⟩

/-- A request for the jobs is answered with both tables of jobs. -/
theorem c138_list_partial (g : Str → Str) (running completed : GoMap Str (List Str × Wire.Trace)) :
    Answers (seen g (listHandler running completed)) 200
      (.obj [("completed".toList, Wire.ofJobs completed), ("running".toList, Wire.ofJobs running)]) := by
  refine successHandler_seen g _ _ (fineMembers (fun m hm => ?_))
  simp only [List.mem_cons, List.not_mem_nil, or_false] at hm
  rcases hm with rfl | rfl
  · exact fine_ofJobs _
  · exact fine_ofJobs _

/-- A request for the stream of a job that does not run is answered with the reason. -/
theorem c138_read_partial (g : Str → Str) (bad : Option (Nat × Str)) :
    ∃ w, readHandler false bad = some w ∧ Refuses (seen g w) 404 "job not found".toList :=
  ⟨_, rfl, errorHandler_seen g _ _ (by decide)⟩

/-- The pages are labelled as what they are. -/
theorem c138_page (g : Str → Str) (html : Str) :
    seen g (pageHandler html) = ⟨200, some "text/html".toList, html⟩ := by
  unfold seen pageHandler write writeHeader setHeader
  rfl

/-- Violated: no answer with JSON is labelled as JSON, because the label is set when the headers have been sent. The
library guesses one, and JSON is not among its guesses. -/
theorem c138_label_violated (g : Str → Str) (hg : ∀ b rest, g b ≠ "application/json".toList ++ rest) (code : Nat) :
    (∀ v, ¬ Labelled (seen g (successHandler fresh code v))) ∧
    (∀ why, ¬ Labelled (seen g (errorHandler fresh code why))) ∧
    (∀ running completed, ¬ Labelled (seen g (listHandler running completed))) ∧
    (∀ ns body id why taken, ¬ Labelled (seen g (createHandler ns body id why taken))) ∧
    (∀ found err, ¬ Labelled (seen g (deleteHandler found err))) := by
  have key : ∀ (code : Nat) (t : Str) (h : GoMap Str Str), ¬ Labelled (seen g ⟨h, some (code, []), t⟩) := by
    rintro code t h ⟨rest, hl⟩
    have : (if t = [] then none else some (g t)) = some ("application/json".toList ++ rest) := hl
    split at this
    · cases this
    · exact hg _ _ (Option.some.inj this)
  have hs : ∀ code v, ¬ Labelled (seen g (successHandler fresh code v)) := fun code v => key code _ _
  have he : ∀ code why, ¬ Labelled (seen g (errorHandler fresh code why)) := fun code why => key code _ _
  refine ⟨hs code, he code, fun r c => hs _ _, ?_, ?_⟩
  · intro ns body id why taken
    unfold createHandler
    split
    · exact he _ _
    · split
      · exact he _ _
      · split
        · exact he _ _
        · exact hs _ _
  · intro found err
    unfold deleteHandler
    split
    · split
      · exact he _ _
      · exact hs _ _
    · exact he _ _

/-- Violated: a request for a stream that is no handshake of websockets is answered twice in one: with the status and the
text of the library, and then with the JSON of the error. The whole is not JSON, and the status that is meant, 500, is not
the one that is sent. -/
theorem c138_handshake_violated (g : Str → Str) (err : Str) :
    ∃ w, watchHandler (some (400, err)) = some w ∧ readHandler true (some (400, err)) = some w ∧
      seen g w = ⟨400, some "text/plain; charset=utf-8".toList, "Bad Request\n".toList ++ (ofError err).text⟩ ∧
      ∀ status v, ¬ Answers (seen g w) status v := by
  have h : seen g (errorHandler (returnError fresh 400) 500 err) =
      ⟨400, some "text/plain; charset=utf-8".toList, "Bad Request\n".toList ++ (ofError err).text⟩ := by
    have hb : (errorHandler (returnError fresh 400) 500 err).body = "Bad Request\n".toList ++ (ofError err).text := by
      show ([] ++ (statusText 400 ++ ['\n'])) ++ (ofError err).text = _
      rfl
    have hs : (errorHandler (returnError fresh 400) 500 err).sent = some (400, (httpError (setHeader fresh "Sec-Websocket-Version".toList "13".toList) [] 400).header) := rfl
    unfold seen
    rw [hs, hb]
    have : GoMap.get (httpError (setHeader fresh "Sec-Websocket-Version".toList "13".toList) [] 400).header contentType =
        some "text/plain; charset=utf-8".toList := by decide +kernel
    simp only [Option.getD_some, this]
  refine ⟨_, rfl, rfl, h, fun status v ha => ?_⟩
  obtain ⟨-, ha⟩ := ha
  rw [h] at ha
  exact says_ne_B (c := 'B') (by decide) ha

/-- The hypotheses are met, and the theorems are about answers that are given. -/
example : Refuses (seen (fun _ => []) (createHandler "default".toList "[]".toList [] "not an object".toList false)) 400
    "not an object".toList :=
  (c138_create_partial _ _ _ _ _ (by decide)).2.1 (by decide) (by decide +kernel) _
example : ∀ b rest : Str, (fun _ => "text/plain; charset=utf-8".toList) b ≠ "application/json".toList ++ rest := by
  intro _ rest h
  have h' : some 't' = some 'a' := congrArg List.head? h
  exact absurd h' (by decide)

/-! ### C139 -/

/-- `CreateTrace` returns the trace it has asked for, or an error that has the reason of the server in it. -/
theorem c139_create (g : Str → Str) (ns body id why : Str) (taken : Bool) (hw : why ≠ []) :
    (∀ s, Values s → ns ≠ [] → body = Wire.requestBody s → taken = false →
      ∃ t, createTrace (seen g (createHandler ns body id why taken)) = .ok (some t) ∧ t.ns = ns ∧ t.job = id ∧
        t.selfLink = "/jobs/".toList ++ id ∧ SameSpec s t.spec) ∧
    (ns = [] → ∃ m, createTrace (seen g (createHandler ns body id why taken)) = .refused m ∧
      Tells m "namespace not found".toList) ∧
    (ns ≠ [] → Wire.readSpec body = none →
      ∃ m, createTrace (seen g (createHandler ns body id why taken)) = .refused m ∧ Tells m why) ∧
    (ns ≠ [] → Wire.readSpec body ≠ none → taken = true →
      ∃ m, createTrace (seen g (createHandler ns body id why taken)) = .refused m ∧
        Tells m ("trace job ".toList ++ id ++ " already running".toList)) := by
  have tell : ∀ (a : Seen) (status : Nat) (r : Str), status ≠ 201 → Refuses a status r →
      ∃ m, createTrace a = .refused m ∧ Tells m r := by
    intro a status r hs ⟨h1, h2⟩
    exact ⟨errorf (statusLine a.status) a.body, by unfold createTrace; rw [if_pos (by rw [h1]; exact hs)], _, a.body, [')'], rfl, h2⟩
  refine ⟨?_, fun h => ?_, fun h hb => ?_, fun h hb ht => ?_⟩
  · rintro s hs hn rfl rfl
    obtain ⟨s', t, h1, h2, h3⟩ := Wire.c129_created ns id s hs
    refine ⟨t, ?_, h3⟩
    unfold createHandler
    rw [if_neg hn, h1]
    have hb : (seen g (successHandler fresh 201 (Wire.ofJob id (Wire.created ns id s')))).body = Wire.createdBody ns id s' := by
      show [] ++ _ = _
      rfl
    have hst : (seen g (successHandler fresh 201 (Wire.ofJob id (Wire.created ns id s')))).status = 201 := rfl
    show createTrace (seen g (successHandler fresh 201 (Wire.ofJob id (Wire.created ns id s')))) = _
    unfold createTrace
    rw [hst, hb, if_neg (by decide), h2]
  · exact tell _ 404 _ (by decide) ((c138_create_partial g ns body id why hw).1 h taken)
  · exact tell _ 400 _ (by decide) ((c138_create_partial g ns body id why hw).2.1 h hb taken)
  · obtain ⟨s, hs⟩ := Option.ne_none_iff_exists'.1 hb
    subst ht
    exact tell _ 500 _ (by decide) ((c138_create_partial g ns body id why hw).2.2 s h hs).1

/-- A job is reported as deleted just if the server has deleted it. -/
theorem c139_deleted (g : Str → Str) (found : Bool) (err : Option Str) :
    deleteTraceJob (seen g (deleteHandler found err)) = .ok () ↔ found = true ∧ err = none := by
  have hst : (seen g (deleteHandler found err)).status = (if found then if err = none then 200 else 500 else 404) := by
    cases found <;> cases err <;> rfl
  unfold deleteTraceJob
  rw [hst]
  cases found <;> cases err <;> simp

/-- Violated: whatever the reason why a job is not deleted or its stream not opened, the user is told the same. -/
theorem c139_reason_violated (g : Str → Str) :
    (∀ e, deleteTraceJob (seen g (deleteHandler true (some e))) = .refused "500 Internal Server Error".toList) ∧
    (∀ err, deleteTraceJob (seen g (deleteHandler false err)) = .refused "404 Not Found".toList) ∧
    (∀ bad w, readHandler false bad = some w → createWebsock (seen g w) = .refused "websocket: bad handshake".toList) ∧
    (∀ why, ¬ Tells "500 Internal Server Error".toList why) ∧ (∀ why, ¬ Tells "404 Not Found".toList why) ∧
    ∀ why, ¬ Tells "websocket: bad handshake".toList why := by
  have no : ∀ text : Str, '"' ∉ text → ∀ why, ¬ Tells text why := by
    rintro text hq why ⟨pre, t, post, rfl, ht⟩
    apply hq
    rw [List.mem_append, List.mem_append]
    refine .inl (.inr ?_)
    cases ht with
    | obj h =>
      cases h with
      | last _ hk =>
        obtain ⟨b, -, rfl⟩ := hk
        simp
      | more _ _ _ _ _ _ h' => cases h'
  refine ⟨fun e => ?_, fun err => ?_, fun _ _ _ => rfl, no _ (by decide), no _ (by decide), no _ (by decide)⟩
  · have : (seen g (deleteHandler true (some e))).status = 500 := rfl
    unfold deleteTraceJob
    rw [this]
    decide
  · have : (seen g (deleteHandler false err)).status = 404 := rfl
    unfold deleteTraceJob
    rw [this]
    decide

/-- The status of an answer to a request for the jobs is not looked at; but an answer with an error is not taken for a
list of jobs. -/
theorem c139_list (g : Str → Str) (code : Nat) (why : Str) (h : why ≠ []) :
    getJobs (seen g (errorHandler fresh code why)) = .unreadable := by
  obtain ⟨-, hs⟩ := errorHandler_seen g code why h
  unfold getJobs Wire.readJobs
  have h1 := only_says (w := []) (w' := []) space_nil hs space_nil
  rw [List.nil_append, List.append_nil] at h1
  rw [h1]
  rfl

/-- The hypotheses are met: a name that is taken. -/
example : ∃ m, createTrace (seen (fun _ => []) (createHandler "default".toList "{}".toList "j".toList "x".toList true)) =
    .refused m ∧ Tells m "trace job j already running".toList :=
  (c139_create _ _ _ _ _ _ (by decide)).2.2.2 (by decide) (by decide +kernel) rfl

end Swoll.Props.Answers
