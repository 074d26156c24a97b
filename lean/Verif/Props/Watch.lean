import Verif.Model.Watch
import Verif.Spec.Watch
import Verif.Props.PrintLine
import Verif.Props.EventJSON
/-
C125: what `swoll client watch` shows of the events it reads.

`ev` is the event the server decodes, `ev'` what the client reads of it (C70); `js` holds the name
tables of the two, `env` the orders the client goes through its flag tables in.
-/
namespace Swoll.Props.Watch
open Swoll.Bytes Swoll.Event Swoll.Flags Swoll.Print Swoll.Watch
open Swoll.Spec.Event Swoll.Spec.Print Swoll.Spec.Watch
open Swoll.Lemmas.Flags Swoll.Lemmas.Event Swoll.Lemmas.Print
open Swoll.Props.EventJSON (Decoded Built)
open Swoll.EventJSON (throughJSON)
open Swoll.Spec.EventJSON (Utf8)
open Swoll.Props.Print (Possible sampleEnv sampleEnv_possible)
open Swoll.Props.Event (sampleScratch sampleScratch_wf sampleTask sampleCall)

/-! ### The line -/

/-- What error is shown does not depend on the way through JSON. -/
theorem error_kept {keys : GoMap String Int} (hk : ∃ o, o.Perm errnoVals ∧ keys = keysOf o) (e : Int)
    (h0 : e ≠ -1) :
    errnoToString (stringToErrno keys (errnoToString e)) = errnoToString e ∧
    (stringToErrno keys (errnoToString e) = 0 ↔ e = 0) := by
  obtain ⟨o, ho, rfl⟩ := hk
  by_cases h : e = 0 ∨ e = 512 ∨ e ∈ Spec.Flags.errnos.map (·.1)
  · rw [(Props.Flags.c42_roundtrip_iff ho e).2 (.inr h)]
    exact ⟨rfl, .rfl⟩
  · simp only [not_or] at h
    obtain ⟨h1, h2⟩ := Props.Flags.c42_unknown ho h.1 h.2.1 h.2.2
    rw [h2, h1]
    exact ⟨by decide +kernel, fun h => absurd h (by decide), fun h' => absurd h' h.1⟩

theorem errnoText_eq (e : Int) : errnoText e = (errnoToString e).toList := by
  unfold errnoText
  split
  · next h => subst h; decide +kernel
  · rfl

theorem errText_eq (e : Int) : errText e = verdict (e == 0) (errnoText e) := by
  rw [errnoText_eq]
  unfold errText verdict styled
  by_cases h : e = 0
  · rw [if_pos h, if_pos (by simpa using h)]
    have : "\x1b[1;32m".toList = "\x1b[".toList ++ "1;32".toList ++ ['m'] := by decide +kernel
    rw [this]
  · rw [if_neg h, if_neg (by simpa using h)]
    have : "\x1b[1;31m".toList = "\x1b[".toList ++ "1;31".toList ++ ['m'] := by decide +kernel
    rw [this]

theorem watchLine_eq (env : Env) {ev : TraceEvent Topology.Container} {s : Syscalls.Syscall}
    (h : ev.syscall = some s) : watchLine env ev = some (
      styled "1" (fqdn ev.container ++ [':']) ++ " [".toList ++ styled "4" (chars ev.comm) ++
      "] ".toList ++ s.name.toList ++ ['('] ++ argvText env s.nr ev.argv ++ ") err=".toList ++
      errText ev.error ++ " ses=".toList ++ itoa ev.sid ++ ['\n']) := by
  have l1 : "\x1b[1m".toList = "\x1b[".toList ++ "1".toList ++ ['m'] := by decide +kernel
  have l2 : ":\x1b[0m [\x1b[4m".toList = [':'] ++ "\x1b[0m".toList ++ " [".toList ++
    "\x1b[".toList ++ "4".toList ++ ['m'] := by decide +kernel
  have l3 : "\x1b[0m] ".toList = "\x1b[0m".toList ++ "] ".toList := by decide +kernel
  unfold watchLine
  rw [h]
  dsimp only
  rw [l1, l2, l3]
  unfold styled
  simp only [List.append_assoc]

/-- The line for a call that task `t` made: the container, the command, the system call by the name
Linux has for its number, what `%s` makes of the arguments, the error, in green for none and in red
otherwise, and the session. It is printed whenever the client can read the event at all (see C70).

Partial: as C92 (results of getcwd and of 31 bits and more), and a command that is not UTF-8 is
shown with replacement characters. -/
theorem c125_line_partial (env : Env) {tbl : Syscalls.Syscalls} {js : EventJSON.Env}
    (hb : Built tbl js) (scratch : KEvent) (t : Task) (c : Call) (hw : scratch.WF)
    (hc : t.comm.length = 16) (hn : c.nr.toNat ∈ decodable) (hg : c.nr.toNat ≠ nr.sys_getcwd)
    (hr : -4095 ≤ c.ret.toInt ∧ c.ret.toInt < 2 ^ 31)
    (lk : Option (Int → Option Topology.Container)) (extra : List Byte)
    (ev ev' : TraceEvent Topology.Container)
    (hi : ingest tbl lk (.bytes (encode (onExit scratch t c) ++ extra)) = .ok ev)
    (hin : ∀ f v, ev.argv.lookup f = some v → ∀ off len, v ≠ .outside off len)
    (hj : throughJSON js c.nr.toNat ev = .ok ev') :
    ∃ line comm shownComm name err,
      watchLine env ev' = some line ∧
      line = styled "1" (containerName ((lk.bind fun f => f t.pidNs.toNat).map fun k =>
          (k.name, k.pod, k.ns)) ++ [':']) ++ " [".toList ++
        styled "4" shownComm ++ "] ".toList ++ "sys_".toList ++ name.toList ++ ['('] ++
        argvText env c.nr.toNat ev'.argv ++ ") err=".toList ++
        verdict (errorOf c.ret.toInt == 0) err ++ " ses=".toList ++ decimal t.sid.toInt ++ ['\n'] ∧
      (c.nr.toNat, name) ∈ Spec.Linux.syscalls ∧ BeforeNul t.comm comm ∧
      (Utf8 comm → shownComm = comm.map fun b => Char.ofNat b.toNat) ∧
      ErrorText (errorOf c.ret.toInt) err := by
  obtain ⟨ev₁, hev₁, hsys, -, -, -, -, -, hsid, -, -, -, hcomm, hcont, -⟩ :=
    Props.Event.c39_header_partial tbl lk scratch t c extra hw hc hn
  obtain rfl : ev₁ = ev := Res.ok.inj (hev₁.symm.trans hi)
  obtain ⟨ev₂, hev₂, -, herr⟩ :=
    Props.Event.c68_result_partial tbl lk scratch t c extra hw hc hn hg
  obtain rfl : ev₂ = ev₁ := Res.ok.inj (hev₂.symm.trans hi)
  have herr := herr hr.1 hr.2
  have hnr : (onExit scratch t c).syscall.toNat = c.nr.toNat := by rw [onExit_syscall]
  have hdec : Decoded tbl (onExit scratch t c) ev₂ :=
    ⟨wf_onExit scratch t c hw hc, ⟨lk, extra, hi⟩, hin⟩
  have hspec := hdec.spec hb
  rw [hnr] at hspec
  obtain ⟨heq, -⟩ := hspec.2.2 ev' hj
  obtain ⟨⟨order, ho, hs⟩, hok⟩ := hb
  obtain ⟨fields, hf⟩ := (decodable_iff _).1 hn
  obtain ⟨sc, hsc, hscn⟩ := Lemmas.EventJSON.lookup_decodable ho hs hf
  obtain ⟨name, hname, hlinux⟩ := Props.PrintLine.c93_names_are_linux order ho tbl hs _ sc hsc
  have hnn : errorOf c.ret.toInt ≠ -1 := by
    unfold errorOf
    split <;> omega
  obtain ⟨hk1, hk2⟩ := error_kept hok.errno (errorOf c.ret.toInt) hnn
  have e0 : ev'.syscall = some sc := by rw [heq]; exact hsys.trans hsc
  have e1 : fqdn ev'.container = containerName ((lk.bind fun f => f t.pidNs.toNat).map fun k =>
      (k.name, k.pod, k.ns)) := by
    have : ev'.container = ev₂.container.map EventJSON.containerThroughJSON := by rw [heq]
    rw [fqdn_eq, this, ← hcont]
    cases ev₂.container <;> rfl
  have e2 : errText ev'.error = verdict (errorOf c.ret.toInt == 0)
      (errnoText (errorOf c.ret.toInt)) := by
    have : ev'.error = stringToErrno js.errno (errnoToString ev₂.error) := by rw [heq]
    rw [errText_eq, errnoText_eq, errnoText_eq, this, herr, hk1]
    have : (stringToErrno js.errno (errnoToString (errorOf c.ret.toInt)) == 0) =
        (errorOf c.ret.toInt == 0) := by
      rw [Bool.eq_iff_iff, beq_iff_eq, beq_iff_eq]
      exact hk2
    rw [this]
  have e3 : itoa ev'.sid = decimal t.sid.toInt := by
    have : ev'.sid = ev₂.sid := by rw [heq]
    rw [this, hsid, itoa_eq]
  have e4 : sc.name.toList = "sys_".toList ++ name.toList := by rw [hname, String.toList_append]
  refine ⟨_, ev₂.comm, chars ev'.comm, name, errnoText (errorOf c.ret.toInt),
    watchLine_eq env e0, ?_, hscn ▸ hlinux, hcomm, ?_, errorText_ok _⟩
  · rw [e1, e2, e3, e4, hscn]
    simp only [List.append_assoc]
  · intro hu
    have : ev'.comm = ev₂.comm := by
      have : ev'.comm = EventJSON.jsonText ev₂.comm := by rw [heq]
      rw [this]
      exact (Lemmas.EventJSON.jsonText_eq_iff _).2 hu
    rw [this]
    rfl

/-- Met by a call to `kill`. -/
example : ∃ tbl ev ev', Built tbl Props.EventJSON.someEnv ∧
    ingest tbl none (.bytes (encode (onExit sampleScratch sampleTask (sampleCall nr.sys_kill)) ++ [])) =
      .ok ev ∧
    (∀ f v, ev.argv.lookup f = some v → ∀ off len, v ≠ .outside off len) ∧
    throughJSON Props.EventJSON.someEnv (sampleCall nr.sys_kill).nr.toNat ev = .ok ev' := by
  obtain ⟨tbl, hb⟩ := Props.EventJSON.built_exists
  have hwf := wf_onExit sampleScratch sampleTask (sampleCall nr.sys_kill) sampleScratch_wf rfl
  have hnr : (onExit sampleScratch sampleTask (sampleCall nr.sys_kill)).syscall.toNat = nr.sys_kill := by
    rw [onExit_syscall]; decide
  have hi := ingest_ok (κ := Topology.Container) tbl none _ hwf []
    [("pid", .c32 0), ("sig", .c32 1)] (by rw [hnr]; decide +kernel)
  have hin : ∀ f v, (eventOf (κ := Topology.Container) tbl none
      (onExit sampleScratch sampleTask (sampleCall nr.sys_kill))
      ([("pid", Rd.c32 0), ("sig", .c32 1)].map fun f => (f.1, evalRd (onExit sampleScratch sampleTask
        (sampleCall nr.sys_kill)).args f.2))).argv.lookup f = some v →
      ∀ off len, v ≠ .outside off len := by
    intro f v hf off len hv
    have hno : ¬ Inside v := by rw [hv]; exact fun h => h
    have := (Props.Event.c37_outside_iff tbl none _ hwf [] _ hi).1 ⟨f, v, hf, hno⟩
    rw [hnr] at this
    rcases this with h | h | h | h
    · exact absurd h.1 (by decide)
    · exact absurd h.1 (by decide)
    · exact absurd h.1 (by decide)
    · exact absurd h (by decide)
  have hdec : Decoded tbl _ _ := ⟨hwf, ⟨none, [], hi⟩, hin⟩
  obtain ⟨hp, herr⟩ := Props.EventJSON.c70_readable_partial hb hdec
  rw [hnr] at hp herr
  have hnr' : (sampleCall nr.sys_kill).nr.toNat = nr.sys_kill := by decide
  rw [hnr']
  cases hj : throughJSON Props.EventJSON.someEnv nr.sys_kill (eventOf (κ := Topology.Container) tbl none
      (onExit sampleScratch sampleTask (sampleCall nr.sys_kill))
      ([("pid", Rd.c32 0), ("sig", .c32 1)].map fun f => (f.1, evalRd (onExit sampleScratch sampleTask
        (sampleCall nr.sys_kill)).args f.2))) with
  | panic => exact absurd hj hp
  | err => exact absurd (herr.1 hj).1 (by decide)
  | ok ev' => exact ⟨tbl, _, ev', hb, hi, hin, hj⟩

/-! ### The arguments -/

/-- What `--oneshot` shows as the argument `s` is in its place, possibly with a complaint around it. -/
theorem table_same : ∀ row ∈ shown, ∃ r ∈ watched.lookup row.1,
    (∀ x ∈ row.2.2.zipIdx, (row.1, x.1.name) ∉ differs → (match r.2[place row.1 x.2]? with
      | some (.method h) => h == x.1.how
      | some (.bad _ h) => h == x.1.how
      | _ => false) = true) ∧
    ∀ x ∈ spilled, x.1 = row.1 → r.2[x.2.1]? = some (.bytes x.2.2) := by decide +kernel

/-- The arguments are shown in braces, with blanks between them; each that `swoll client create
--oneshot` shows of the same event (for which see C89) is in its place among them, as it is there or
with a complaint about its type around it; bytes are shown as they are. Left out: structures, and some
arguments of `clone` and `execve`. -/
theorem c125_arguments_partial (env : Env) (n : Nat) (argv : List (String × Val)) (as : List PArg)
    (has : arguments env n argv = some as) :
    ∃ pre items post, argvText env n argv = pre ++ join [' '] items ++ post ∧
      ((pre = "&{".toList ∧ post = "}".toList) ∨ (pre = "&{{".toList ∧ post = "}}".toList)) ∧
      (∀ k a, as[k]? = some a → (n, a.name) ∉ differs →
        ∃ item, items[place n k]? = some item ∧
          (item = a.text ∨ ∃ goType, item = complaint goType a.text)) ∧
      ∀ k f bs, (n, k, f) ∈ spilled → argv.lookup f = some (.buf bs) →
        items[k]? = some (bs.map fun b => Char.ofNat b.toNat) := by
  unfold arguments at has
  rw [Option.map_eq_some_iff] at has
  obtain ⟨row, hrow, rfl⟩ := has
  obtain ⟨r, hr, hall, hspill⟩ := table_same _ (lookup_mem hrow)
  rw [Option.mem_def] at hr
  have key : (∀ k a, (row.2.map (fun s => (⟨s.name, s.ctype, render env argv s.how⟩ : PArg)))[k]? = some a →
      (n, a.name) ∉ differs → ∃ item, (r.2.map (itemText env argv))[place n k]? = some item ∧
        (item = a.text ∨ ∃ goType, item = complaint goType a.text)) ∧
      ∀ k f bs, (n, k, f) ∈ spilled → argv.lookup f = some (.buf bs) →
        (r.2.map (itemText env argv))[k]? = some (bs.map fun b => Char.ofNat b.toNat) := by
    refine ⟨?_, ?_⟩
    · intro k a ha hd
      rw [List.getElem?_map, Option.map_eq_some_iff] at ha
      obtain ⟨s, hs, rfl⟩ := ha
      have hm := hall (s, k) (List.mem_zipIdx_iff_getElem?.2 hs) hd
      rw [List.getElem?_map]
      dsimp only at hm
      cases hi : r.2[place n k]? with
      | none => rw [hi] at hm; cases hm
      | some i =>
        rw [hi] at hm
        refine ⟨_, rfl, ?_⟩
        cases i with
        | method h =>
          left
          rw [eq_of_beq hm]
          rfl
        | bad t h =>
          right
          refine ⟨t, ?_⟩
          rw [eq_of_beq hm]
          rfl
        | bytes f => cases hm
        | words fs => cases hm
    · intro k f bs hk hf
      rw [List.getElem?_map, hspill _ hk rfl]
      show some (chars (bytesOf env argv f)) = _
      unfold bytesOf
      rw [hf]
      rfl
  unfold argvText
  rw [hr]
  obtain ⟨embedded, items⟩ := r
  cases embedded with
  | false =>
    refine ⟨_, _, _, ?_, .inl ⟨rfl, rfl⟩, key⟩
    have l1 : "&{".toList = ['&', '{'] := by decide +kernel
    have l2 : "}".toList = ['}'] := by decide +kernel
    rw [l1, l2]
    rfl
  | true =>
    refine ⟨_, _, _, ?_, .inr ⟨rfl, rfl⟩, key⟩
    have l1 : "&{{".toList = ['&', '{', '{'] := by decide +kernel
    have l2 : "}}".toList = ['}', '}'] := by decide +kernel
    rw [l1, l2]
    simp

/-- Of `kill(7, 9)` both numbers are shown with complaints around them. -/
example : ∃ as, arguments sampleEnv nr.sys_kill [("pid", .int 7), ("sig", .int 9)] = some as ∧
    as.length = 2 ∧ (∀ a ∈ as, (nr.sys_kill, a.name) ∉ differs) ∧
    argvText sampleEnv nr.sys_kill [("pid", .int 7), ("sig", .int 9)] =
      "&{%!s(int32=7) %!s(int32=9)}".toList := by
  refine ⟨_, rfl, by decide +kernel, by decide +kernel, by decide +kernel⟩

/-- Of `write(1, "\\x1bc", 2)` the bytes are shown, which reset a terminal. -/
example : (arguments sampleEnv nr.sys_write [("fd", .int 1), ("buf", .buf [27, 99]), ("count", .int 2)]).isSome ∧
    (nr.sys_write, 1, "buf") ∈ spilled ∧
    argvText sampleEnv nr.sys_write [("fd", .int 1), ("buf", .buf [27, 99]), ("count", .int 2)] =
      "&{%!s(types.InputFD=1) \x1bc %!s(int=2)}".toList := by
  refine ⟨rfl, by decide +kernel, by decide +kernel⟩

theorem argvText_of {env : Env} {n : Nat} {argv : List (String × Val)} {r : Bool × List Item}
    (h : watched.lookup n = some r) {i : Item} (hi : i ∈ r.2) :
    Contains (argvText env n argv) (itemText env argv i) := by
  have hj : ∀ (l : List (List Char)) x, x ∈ l → Contains (join [' '] l) x := by
    intro l
    induction l with
    | nil => intro x hx; cases hx
    | cons y l ih =>
      intro x hx
      cases l with
      | nil =>
        rw [List.mem_singleton.1 hx]
        exact ⟨[], [], by simp [join]⟩
      | cons z l =>
        rcases List.mem_cons.1 hx with rfl | hx
        · exact ⟨[], [' '] ++ join [' '] (z :: l), by simp [join]⟩
        · obtain ⟨a, b, hab⟩ := ih x hx
          refine ⟨y ++ [' '] ++ a, b, ?_⟩
          rw [join, hab]
          · simp
          · simp
  obtain ⟨a, b, hab⟩ := hj _ _ (List.mem_map_of_mem (f := itemText env argv) hi)
  unfold argvText
  rw [h]
  dsimp only
  rw [hab]
  cases r.1
  · exact ⟨['&'] ++ ['{'] ++ a, b ++ ['}'], by simp⟩
  · exact ⟨['&'] ++ ['{'] ++ ['{'] ++ a, b ++ ['}'] ++ ['}'], by simp⟩

theorem contains_trans {a b c : List Char} (h1 : Contains a b) (h2 : Contains b c) :
    Contains a c := by
  obtain ⟨x, y, rfl⟩ := h1
  obtain ⟨u, v, rfl⟩ := h2
  exact ⟨x ++ u, v ++ y, by simp⟩

theorem line_argv {env : Env} {ev : TraceEvent Topology.Container} {s : Syscalls.Syscall}
    (h : ev.syscall = some s) {line : List Char} (hl : watchLine env ev = some line) :
    Contains line (argvText env s.nr ev.argv) := by
  rw [watchLine_eq env h] at hl
  rw [← Option.some.inj hl]
  exact ⟨styled "1" (fqdn ev.container ++ [':']) ++ (" [".toList ++ (styled "4" (chars ev.comm) ++
    ("] ".toList ++ (s.name.toList ++ ['('])))), ") err=".toList ++ (errText ev.error ++ (" ses=".toList ++ (itoa ev.sid ++ ['\n']))),
    by simp only [List.append_assoc]⟩

theorem complaint_start (goType : String) (t : List Char) : Contains (complaint goType t) "%!s(".toList :=
  ⟨[], goType.toList ++ (['='] ++ (t ++ [')'])), by unfold complaint; simp only [List.append_assoc, List.nil_append]⟩

/-- Fixed text of a structure's numbers. -/
theorem layText_contains {p : String} : ∀ (ts : List Tok) (bs : List Byte), (∃ q, Tok.lit (p ++ q) ∈ ts) →
    Contains (layText ts bs) p.toList
  | [], _, ⟨q, h⟩ => by cases h
  | t :: ts, bs, ⟨q, h⟩ => by
    rcases List.mem_cons.1 h with rfl | hm
    · refine ⟨[], q.toList ++ layText ts bs, ?_⟩
      simp [layText, String.toList_append]
    · cases t with
      | lit s =>
        obtain ⟨a, b, hab⟩ := layText_contains ts bs ⟨q, hm⟩
        exact ⟨s.toList ++ a, b, by rw [layText, hab]; simp⟩
      | u w =>
        obtain ⟨a, b, hab⟩ := layText_contains ts (bs.drop w) ⟨q, hm⟩
        exact ⟨itoa (leVal (bs.take w)) ++ a, b, by rw [layText, hab]; simp⟩
      | s w =>
        obtain ⟨a, b, hab⟩ := layText_contains ts (bs.drop w) ⟨q, hm⟩
        exact ⟨itoa (BitVec.ofNat (8 * w) (leVal (bs.take w))).toInt ++ a, b, by
          rw [layText, hab]; simp⟩

/-- Is the item shown with a complaint? -/
def noisy : Item → Bool
  | .bad _ _ => true
  | .method (.struct _ ts) => ts.any fun t =>
    t == .lit ("%!s(" ++ "uint64=") || t == .lit ("%!s(" ++ "int64=")
  | _ => false

theorem noisy_contains {env : Env} {argv : List (String × Val)} {i : Item} (h : noisy i = true) :
    Contains (itemText env argv i) "%!s(".toList := by
  cases i with
  | bad t x => exact complaint_start t _
  | bytes f => cases h
  | words fs => cases h
  | method x =>
    cases x with
    | struct fs ts =>
      obtain ⟨t, ht, hq⟩ := List.any_eq_true.1 h
      refine layText_contains ts _ ?_
      rcases Bool.or_eq_true_iff.1 hq with hq | hq
      · exact ⟨_, eq_of_beq hq ▸ ht⟩
      · exact ⟨_, eq_of_beq hq ▸ ht⟩
    | _ => cases h

/-- Numbers do not read as numbers: whatever the event, if it is of one of the 42 of 59 calls that
have a number among their arguments, the line holds a complaint of the formatter. -/
theorem c125_numbers_violated (env : Env) (ev : TraceEvent Topology.Container) (s : Syscalls.Syscall)
    (hs : ev.syscall = some s) (hn : s.nr ∈ decodable) (hw : s.nr ∉ wordsOnly) :
    ∃ line, watchLine env ev = some line ∧ Contains line "%!s(".toList := by
  have table : ∀ n ∈ decodable, n ∉ wordsOnly → ∃ r ∈ watched.lookup n, r.2.any noisy = true := by
    decide +kernel
  obtain ⟨r, hr, hany⟩ := table _ hn hw
  obtain ⟨i, hi, hq⟩ := List.any_eq_true.1 hany
  exact ⟨_, watchLine_eq env hs, contains_trans (line_argv hs (watchLine_eq env hs))
    (contains_trans (argvText_of hr hi) (noisy_contains hq))⟩

/-- An event of a call with a number among its arguments. -/
example : ∃ (ev : TraceEvent Topology.Container) (s : Syscalls.Syscall), ev.syscall = some s ∧
    s.nr ∈ decodable ∧ s.nr ∉ wordsOnly ∧ ev.argv = [("pid", .int 7), ("sig", .int 9)] :=
  ⟨{ eventOf ⟨[], []⟩ none (onExit sampleScratch sampleTask (sampleCall nr.sys_kill))
      [("pid", .int 7), ("sig", .int 9)] with
      syscall := some ⟨nr.sys_kill, "sys_kill", "signal", "signals"⟩ }, _, rfl, by decide +kernel,
    by decide +kernel, rfl⟩

/-! ### One line -/

/-- Watching shows bytes as they are. -/
theorem bytes_shown : ∀ row ∈ watched, ∀ i ∈ row.2.2, (match i with
    | .method h => quiet h
    | .bad t h => quiet h && !t.toList.contains '\n'
    | _ => true) = true := by decide +kernel

/-- An event is shown as one line if nothing in it has a line end: none of its strings and none of its
buffers, nor the command, nor the names of the container. (`hargs` leaves out `nanosleep`, for which
memory of the server is shown, see C36.) -/
theorem c125_one_line_partial (env : Env) (he : Possible env) (ev : TraceEvent Topology.Container)
    (s : Syscalls.Syscall) (hs : ev.syscall = some s) (hname : '\n' ∉ s.name.toList)
    (hargs : ∀ f v, (f, v) ∈ ev.argv → (∃ i, v = .int i) ∨ (∃ bs, v = .str bs ∧ (10 : Byte) ∉ bs) ∨
      ∃ bs, v = .buf bs ∧ (10 : Byte) ∉ bs)
    (hcomm : (10 : Byte) ∉ ev.comm)
    (hcont : ∀ c ∈ ev.container, '\n' ∉ c.name.toList ∧ '\n' ∉ c.pod.toList ∧ '\n' ∉ c.ns.toList) :
    ∃ line, watchLine env ev = some line ∧ OneLine line := by
  have hstr : ∀ f bs, (f, Val.str bs) ∈ ev.argv → (10 : Byte) ∉ bs := by
    intro f bs hm
    rcases hargs f _ hm with ⟨i, h⟩ | ⟨b, h, hb⟩ | ⟨b, h, -⟩
    · cases h
    · injection h with h; rw [h]; exact hb
    · cases h
  have hbytes : ∀ f, (10 : Byte) ∉ bytesOf env ev.argv f := by
    intro f
    unfold bytesOf
    cases hl : ev.argv.lookup f with
    | none => simp
    | some v =>
      rcases hargs f v (lookup_mem hl) with ⟨i, rfl⟩ | ⟨b, rfl, -⟩ | ⟨b, rfl, hb⟩
      · simp
      · simp
      · exact hb
  have hrender : ∀ h, quiet h = true → '\n' ∉ render env ev.argv h := fun h hq =>
    render_newline he hstr h hq fun f _ => sock_newline fun _ hm => hbytes f (List.mem_of_mem_drop hm)
  have hitem : ∀ row ∈ watched, ∀ i ∈ row.2.2, '\n' ∉ itemText env ev.argv i := by
    intro row hrow i hi
    have hq := bytes_shown row hrow i hi
    cases i with
    | method h => exact hrender h hq
    | bad t h =>
      simp only [Bool.and_eq_true, Bool.not_eq_true', List.contains_eq_mem, decide_eq_false_iff_not] at hq
      unfold itemText
      simp only [List.mem_append, not_or]
      exact ⟨⟨⟨⟨by decide +kernel, hq.2⟩, by decide⟩, hrender h hq.1⟩, by decide⟩
    | bytes f => exact chars_newline (hbytes f)
    | words fs =>
      unfold itemText
      simp only [List.mem_append, not_or]
      refine ⟨⟨by decide, join_newline (by decide) ?_⟩, by decide⟩
      intro x hx
      obtain ⟨f, -, rfl⟩ := List.mem_map.1 hx
      refine chars_newline ?_
      unfold strOf
      split
      · next b hb => exact hstr f b (lookup_mem hb)
      · simp
  have hargv : '\n' ∉ argvText env s.nr ev.argv := by
    unfold argvText
    cases hl : watched.lookup s.nr with
    | none => dsimp only; decide +kernel
    | some r =>
      obtain ⟨emb, items⟩ := r
      have : '\n' ∉ join [' '] (items.map (itemText env ev.argv)) := by
        refine join_newline (by decide) ?_
        intro x hx
        obtain ⟨i, hi, rfl⟩ := List.mem_map.1 hx
        exact hitem _ (lookup_mem hl) i hi
      cases emb <;> simpa using this
  have hfq : '\n' ∉ fqdn ev.container := by
    unfold fqdn
    split
    · decide +kernel
    · next c hc =>
      obtain ⟨c1, c2, c3⟩ := hcont c hc
      simp only [List.mem_append, not_or]
      exact ⟨⟨⟨⟨c1, by decide⟩, c2⟩, by decide⟩, c3⟩
  have hst : ∀ (x : String) (t : List Char), '\n' ∉ x.toList → '\n' ∉ t → '\n' ∉ styled x t := by
    intro x t hx ht
    unfold styled
    simp only [List.mem_append, not_or]
    exact ⟨⟨⟨⟨by decide +kernel, hx⟩, by decide⟩, ht⟩, by decide +kernel⟩
  have herr : '\n' ∉ errText ev.error := by
    rw [errText_eq]
    unfold verdict
    refine hst _ _ ?_ (errno_newline _)
    cases (ev.error == 0) <;> decide +kernel
  refine ⟨_, watchLine_eq env hs, _, rfl, ?_⟩
  simp only [List.mem_append, not_or]
  refine ⟨⟨⟨⟨⟨⟨⟨⟨⟨⟨hst _ _ (by decide +kernel) ?_, by decide +kernel⟩, hst _ _ (by decide +kernel)
    (chars_newline hcomm)⟩, by decide +kernel⟩, hname⟩, by decide⟩, hargv⟩, by decide +kernel⟩, herr⟩,
    by decide +kernel⟩, itoa_newline _⟩
  simp only [List.mem_append, not_or]
  exact ⟨hfq, by decide⟩

/-- An event of `unlink("ab")`. -/
example : ∃ (ev : TraceEvent Topology.Container) (s : Syscalls.Syscall), ev.syscall = some s ∧
    '\n' ∉ s.name.toList ∧ ev.argv = [("pathname", .str [97, 98])] ∧
    (∀ f v, (f, v) ∈ ev.argv → (∃ i, v = .int i) ∨ (∃ bs, v = .str bs ∧ (10 : Byte) ∉ bs) ∨
      ∃ bs, v = .buf bs ∧ (10 : Byte) ∉ bs) ∧ (10 : Byte) ∉ ev.comm ∧
    (∀ c ∈ ev.container, '\n' ∉ c.name.toList ∧ '\n' ∉ c.pod.toList ∧ '\n' ∉ c.ns.toList) := by
  refine ⟨{ eventOf ⟨[], []⟩ none (onExit sampleScratch sampleTask (sampleCall nr.sys_unlink))
      [("pathname", .str [97, 98])] with
      syscall := some ⟨nr.sys_unlink, "sys_unlink", "fs", "files"⟩ }, _, rfl, by decide +kernel, rfl, ?_,
    by decide +kernel, fun c hc => nomatch hc⟩
  intro f v h
  obtain ⟨-, rfl⟩ := Prod.mk.inj (List.mem_singleton.1 h)
  exact .inr (.inl ⟨_, rfl, by decide⟩)

/-! ### What a traced program writes -/

/-- A program writes these bytes. -/
def writeCall (data : List Byte) : Call :=
  { nr := BitVec.ofNat 32 nr.sys_write
    args := fun k => if k = 2 then BitVec.ofNat 64 data.length else 4096
    uid := 0, gid := 0, start := 7000, ret := 0, finish := 9000
    mem := fun a => some ((data ++ List.replicate 128 0).getD (a - 4096) 0) }

/-- Clears the screen, moves to its first line and starts a new one. -/
example : (writeCall [27, 91, 50, 74, 27, 91, 72, 10]).nr.toNat = nr.sys_write ∧
    Sane (writeCall [27, 91, 50, 74, 27, 91, 72, 10]) (.buf 1 2) ∧
    BufAt (writeCall [27, 91, 50, 74, 27, 91, 72, 10]).mem 4096 8 [27, 91, 50, 74, 27, 91, 72, 10] := by
  refine ⟨by decide, ?_, by decide +kernel⟩
  exact ⟨fun k _ i _ => rfl, by decide +kernel⟩

/-- Whoever watches a program that writes has its bytes on their terminal as they are, with whatever
line ends and control sequences are in them. -/
theorem c125_written_violated (env : Env) {tbl : Syscalls.Syscalls} {js : EventJSON.Env}
    (hb : Built tbl js) (scratch : KEvent) (t : Task) (c : Call) (hw : scratch.WF)
    (hc : t.comm.length = 16) (hn : c.nr.toNat = nr.sys_write) (hs : Sane c (.buf 1 2))
    (lk : Option (Int → Option Topology.Container)) (extra : List Byte) :
    ∃ ev ev' line bs,
      ingest tbl lk (.bytes (encode (onExit scratch t c) ++ extra)) = .ok ev ∧
      throughJSON js c.nr.toNat ev = .ok ev' ∧ watchLine env ev' = some line ∧
      BufAt c.mem (c.args 1).toNat (c.args 2).toNat bs ∧
      Contains line (bs.map fun b => Char.ofNat b.toNat) := by
  have hdn : c.nr.toNat ∈ decodable := by rw [hn]; decide +kernel
  obtain ⟨ev, v, hi, hv, hm⟩ := Props.Event.c36_decoded_arguments_partial tbl lk scratch t c extra
    hw hc "buf" (.buf 1 2) (by rw [hn]; decide +kernel) (by rw [hn]; decide +kernel) hs
  obtain ⟨ev₁, cnt, hi₁, hcnt, hmc⟩ := Props.Event.c36_decoded_arguments_partial tbl lk scratch t c
    extra hw hc "count" (.s64 2) (by rw [hn]; decide +kernel) (by rw [hn]; decide +kernel)
    ⟨(fun k hk => nomatch hk), fun k hk => nomatch hk⟩
  obtain rfl : ev₁ = ev := Res.ok.inj (hi₁.symm.trans hi)
  obtain ⟨ev₂, hi₂, hsys, -⟩ := Props.Event.c39_header_partial tbl lk scratch t c extra hw hc hdn
  obtain rfl : ev₂ = ev₁ := Res.ok.inj (hi₂.symm.trans hi)
  obtain ⟨bs, rfl⟩ : ∃ bs, v = .buf bs := by
    cases v with
    | buf bs => exact ⟨bs, rfl⟩
    | _ => exact hm.elim
  obtain ⟨n, rfl, hpos⟩ : ∃ n, cnt = .int n ∧ 0 ≤ n := by
    cases cnt with
    | int n =>
      refine ⟨n, rfl, ?_⟩
      have h2 := hs.2 2 (by decide)
      have : n = (c.args 2).toInt := hmc
      rw [this, BitVec.toInt_eq_toNat_of_lt (by omega)]
      omega
    | _ => exact hmc.elim
  have hwf := wf_onExit scratch t c hw hc
  have hnr : (onExit scratch t c).syscall.toNat = c.nr.toNat := by rw [onExit_syscall]
  have hin : ∀ f v, ev₂.argv.lookup f = some v → ∀ off len, v ≠ .outside off len := by
    intro f v hf off len hvo
    have hno : ¬ Inside v := by rw [hvo]; exact fun h => h
    rcases (Props.Event.c37_outside_iff tbl lk _ hwf extra ev₂ hi).1 ⟨f, v, hf, hno⟩ with
      ⟨-, m, hm, hneg⟩ | ⟨h, -⟩ | ⟨h, -⟩ | h
    · rw [hcnt] at hm
      injection hm with hm; injection hm with hm
      omega
    · rw [hnr, hn] at h; revert h; decide
    · rw [hnr, hn] at h; revert h; decide
    · rw [hnr, hn] at h; revert h; decide
  have hdec : Decoded tbl (onExit scratch t c) ev₂ := ⟨hwf, ⟨lk, extra, hi⟩, hin⟩
  obtain ⟨hp, herr⟩ := Props.EventJSON.c70_readable_partial hb hdec
  rw [hnr] at hp herr
  cases hj : throughJSON js c.nr.toNat ev₂ with
  | panic => exact absurd hj hp
  | err =>
    have := (herr.1 hj).1
    rw [hn] at this
    exact absurd this (by decide)
  | ok ev' =>
    have hj' : throughJSON js (onExit scratch t c).syscall.toNat ev₂ = .ok ev' := by rw [hnr]; exact hj
    obtain ⟨hnames, hnd, hkept⟩ := Props.EventJSON.c70_arguments_partial hb hdec hj'
    have hsys' := (Props.EventJSON.c70_header_partial hb hdec hj').1
    have hmem : "buf" ∈ ev'.argv.map (·.1) := by
      rw [hnames]
      exact List.mem_map_of_mem (lookup_mem hv)
    obtain ⟨⟨_, v'⟩, hm', rfl⟩ := List.mem_map.1 hmem
    have hk := hkept "buf" _ v' (lookup_mem hv) hm'
    rw [hnr, hn, show Spec.EventJSON.specials.lookup (nr.sys_write, "buf") = none by decide +kernel] at hk
    obtain rfl : v' = .buf bs := hk
    have hl' : ev'.argv.lookup "buf" = some (.buf bs) :=
      Lemmas.EventJSON.lookup_of_mem (hnames ▸ hnd) hm'
    obtain ⟨⟨order, ho, hso⟩, -⟩ := hb
    obtain ⟨fields, hf⟩ := (decodable_iff _).1 hdn
    obtain ⟨sc, hsc, hscn⟩ := Lemmas.EventJSON.lookup_decodable ho hso hf
    have e0 : ev'.syscall = some sc := by rw [hsys']; exact hsys.trans hsc
    refine ⟨ev₂, ev', _, bs, hi, hj, watchLine_eq env e0, hm, ?_⟩
    obtain ⟨r, hr, hb⟩ : ∃ r ∈ watched.lookup sc.nr, Item.bytes "buf" ∈ r.2 := by
      rw [hscn, hn]
      decide +kernel
    have := contains_trans (line_argv e0 (watchLine_eq env e0)) (argvText_of (env := env) (argv := ev'.argv) hr hb)
    have hi : itemText env ev'.argv (.bytes "buf") = bs.map fun b => Char.ofNat b.toNat := by
      unfold itemText bytesOf
      dsimp only
      rw [hl']
      rfl
    rw [hi] at this
    exact this

end Swoll.Props.Watch
