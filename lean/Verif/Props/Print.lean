import Verif.Lemmas.PrintWrong
import Verif.Props.Event
/-
C89-C93: what a person is shown of an event.
-/
namespace Swoll.Props.Print
open Swoll.Bytes Swoll.Event Swoll.Flags Swoll.Print Swoll.Spec.Event Swoll.Spec.Print
open Swoll.Lemmas.Flags Swoll.Lemmas.Event Swoll.Lemmas.Print

/-! ### C89: the printed call is the call that was made -/

/-- The environment is possible: the mask maps are iterated in some order. -/
def Possible (env : Env) : Prop := ∀ n, (env.order n).Perm n.type.masks

/-- A possible environment. -/
def sampleEnv : Env := ⟨fun n => n.type.masks, fun _ _ => [], fun _ _ => []⟩

theorem sampleEnv_possible : Possible sampleEnv := fun _ => .refl _

/-- Whatever can be decoded can be printed. -/
theorem c89_every_decoded_call_prints {n : Nat} (env : Env) (argv : List (String × Val)) :
    n ∈ decodable ↔ (callName n).isSome ∧ (arguments env n argv).isSome := by
  have h : ∀ n, n ∈ decodable ↔ (shown.lookup n).isSome := by
    intro n
    have : decodable.Perm (shown.map (·.1)) := by decide +kernel
    rw [this.mem_iff, lookup_isSome]
  rw [h n]
  unfold callName arguments
  simp

/-- The name of the call is the one Linux has for its number. -/
theorem c89_call_name_partial : ∀ n ∈ decodable, n ≠ nr.sys_umount2 →
    ∃ name ∈ callName n, (n, name) ∈ Spec.Linux.syscalls := by decide +kernel

/-- `umount2` is printed as `umount`, which is another system call (or was, on x86-32). -/
theorem c89_call_name_violated : (166, "umount2") ∈ Spec.Linux.syscalls ∧
    callName 166 = some "umount" := by decide +kernel

/-- Every argument that is printed, outside `misprinted`, has the name of an argument of the
system call, and its text reads as what the program passed there. -/
theorem c89_arguments_partial {κ : Type} (env : Env) (he : Possible env)
    (tbl : Syscalls.Syscalls) (lk : Option (Int → Option κ)) (scratch : KEvent) (t : Task) (c : Call)
    (extra : List Byte) (hw : scratch.WF) (hc : t.comm.length = 16) (ev : TraceEvent κ)
    (hev : ingest tbl lk (.bytes (encode (onExit scratch t c) ++ extra)) = .ok ev)
    (hx : c.nr.toNat ≠ nr.sys_execve) (as : List PArg)
    (has : arguments env c.nr.toNat ev.argv = some as) :
    ∀ a ∈ as, (c.nr.toNat, a.name) ∉ misprinted →
      ∃ k p, paramOf c.nr.toNat a.name = some (k, p) ∧
        (Sane c (p.kind.at k) →
          ∃ v, Means c (p.kind.at k) v ∧ Reads c p.reading v a.text) := by
  intro a ha hm
  unfold arguments at has
  rw [Option.map_eq_some_iff] at has
  obtain ⟨row, hrow, rfl⟩ := has
  obtain ⟨s, hs, rfl⟩ := List.mem_map.1 ha
  obtain ⟨⟨k, p⟩, hkp, hag⟩ := table_suits _ (lookup_mem hrow) hx s hs hm
  refine ⟨k, p, hkp, fun hsane => render_reads he ?_ hag hsane⟩
  intro f m hf hsm
  obtain ⟨h1, h2⟩ := fieldOk_iff.1 hf
  obtain ⟨ev', v, hev', hv, hmv⟩ :=
    Props.Event.c36_decoded_arguments_partial tbl lk scratch t c extra hw hc f m h1 h2 hsm
  have : ev' = ev := Res.ok.inj (hev'.symm.trans hev)
  exact ⟨v, this ▸ hv, hmv⟩

/-- Arguments are printed in the order of the system call's. -/
theorem c89_argument_order (env : Env) (n : Nat) (argv : List (String × Val)) (as : List PArg)
    (has : arguments env n argv = some as) :
    (as.filterMap fun a => (paramOf n a.name).map (·.1)).Pairwise (· < ·) := by
  have key : ∀ row ∈ shown,
      (row.2.2.filterMap fun s => (paramOf row.1 s.name).map (·.1)).Pairwise (· < ·) := by
    decide +kernel
  unfold arguments at has
  rw [Option.map_eq_some_iff] at has
  obtain ⟨row, hrow, rfl⟩ := has
  rw [List.filterMap_map]
  exact key _ (lookup_mem hrow)

/-- A C type without `const` in front. -/
def unconst (t : String) : String := if t.startsWith "const " then (t.drop 6).toString else t

/-- The C type printed with an argument, outside `mistyped`, is the one in the manual. -/
theorem c89_types_partial (env : Env) (n : Nat) (argv : List (String × Val)) (as : List PArg)
    (has : arguments env n argv = some as) :
    ∀ a ∈ as, (n, a.name) ∉ mistyped →
      ∃ ts ∈ (ctypes.lookup n).bind (·.lookup a.name), unconst a.ctype ∈ ts := by
  have key : ∀ row ∈ shown, ∀ s ∈ row.2.2, (row.1, s.name) ∉ mistyped →
      ∃ ts ∈ (ctypes.lookup row.1).bind (·.lookup s.name), unconst s.ctype ∈ ts := by
    decide +kernel
  unfold arguments at has
  rw [Option.map_eq_some_iff] at has
  obtain ⟨row, hrow, rfl⟩ := has
  intro a ha
  obtain ⟨s, hs, rfl⟩ := List.mem_map.1 ha
  exact key _ (lookup_mem hrow) s hs

/-- Those in `mistyped` are printed with another type, or the system call has no such argument. -/
theorem c89_types_violated (env : Env) (argv : List (String × Val)) : ∀ x ∈ mistyped,
    ∃ as, arguments env x.1 argv = some as ∧ ∃ a ∈ as, a.name = x.2 ∧
      ∀ ts ∈ (ctypes.lookup x.1).bind (·.lookup a.name), unconst a.ctype ∉ ts := by
  have key : ∀ x ∈ mistyped, ∃ row ∈ shown.lookup x.1, ∃ s ∈ row.2, s.name = x.2 ∧
      ∀ ts ∈ (ctypes.lookup x.1).bind (·.lookup s.name), unconst s.ctype ∉ ts := by
    decide +kernel
  intro x hx
  obtain ⟨row, hrow, s, hs, h1, h2⟩ := key x hx
  refine ⟨_, by unfold arguments; rw [hrow]; rfl, _, List.mem_map_of_mem hs, h1, h2⟩

example : (nr.sys_bind, "sockfd") ∉ mistyped ∧ (nr.sys_bind, "addr") ∈ mistyped := by decide +kernel

/-- Every argument of the system call is printed, once, but for those in `omitted`. -/
theorem c89_all_arguments_partial (env : Env) (n : Nat) (argv : List (String × Val))
    (as : List PArg) (has : arguments env n argv = some as) (ps : List Param)
    (hps : prototypes.lookup n = some ps) :
    ∀ p ∈ ps, (∀ name ∈ p.names, (n, name) ∉ omitted) →
      (as.filter fun a => p.names.contains a.name).length = 1 := by
  have key : ∀ row ∈ prototypes, ∀ p ∈ row.2, (∀ name ∈ p.names, (row.1, name) ∉ omitted) →
      ∀ r ∈ shown.lookup row.1,
        (r.2.filter fun s => p.names.contains s.name).length = 1 := by decide +kernel
  intro p hp ho
  unfold arguments at has
  rw [Option.map_eq_some_iff] at has
  obtain ⟨row, hrow, rfl⟩ := has
  have := key _ (lookup_mem hps) p hp ho row hrow
  rw [List.filter_map, List.length_map]
  exact this

/-- A call of `openat`. -/
def openatCall : Call := Props.Event.sampleCall nr.sys_openat

/-- The arguments in `omitted` are not printed: two calls that differ only there look the same.
`openat(AT_FDCWD, "…", O_CREAT, 0600)` and the same with mode `0777`. -/
theorem c89_all_arguments_violated : (∀ x ∈ omitted, ∀ r ∈ shown.lookup x.1,
      ∀ s ∈ r.2, s.name ≠ x.2) ∧
    ∃ c₁ c₂ : Call, c₁.nr.toNat = nr.sys_openat ∧ c₂.nr.toNat = nr.sys_openat ∧
      c₁.args 3 = 0o600 ∧ c₂.args 3 = 0o777 ∧
      (onExit Props.Event.sampleScratch Props.Event.sampleTask c₁) =
        onExit Props.Event.sampleScratch Props.Event.sampleTask c₂ := by
  refine ⟨by decide +kernel, { openatCall with args := fun k => if k = 3 then 0o600 else 500 },
    { openatCall with args := fun k => if k = 3 then 0o777 else 500 }, by decide, by decide, rfl,
    rfl, ?_⟩
  rfl

/-- Calls that are printed wrong. -/
def printCall (n : Nat) : Call :=
  { Props.Event.sampleCall n with
    args := fun k =>
      if n = nr.sys_accept4 ∨ n = nr.sys_timerfd_settime then
        BitVec.ofNat 64 ([0x100, 0x801, 0x100, 0x80801].getD k 0)
      else (Props.Event.sampleCall n).args k }

/-- Each entry of `misprinted` is wrong for some call with readable memory and sensible sizes: the
system call has no such argument, or the text does not read as what was passed. -/
theorem c89_misprinted_are_real : ∀ x ∈ misprinted, paramOf x.1 x.2 = none ∨
    ∃ (c : Call) (k : Nat) (p : Param), c.nr.toNat = x.1 ∧ paramOf x.1 x.2 = some (k, p) ∧
    Sane c (p.kind.at k) ∧ ∃ (env : Env) (scratch : KEvent) (t : Task), Possible env ∧
    scratch.WF ∧ t.comm.length = 16 ∧
    ∀ (tbl : Syscalls.Syscalls) (lk : Option (Int → Option Unit)), ∃ ev as a,
      ingest tbl lk (.bytes (encode (onExit scratch t c))) = .ok ev ∧
      arguments env x.1 ev.argv = some as ∧ a ∈ as ∧ a.name = x.2 ∧
      ∀ v, Means c (p.kind.at k) v → ¬ Reads c p.reading v a.text := by
  have key : ∀ x ∈ misprinted, paramOf x.1 x.2 = none ∨
      ∃ kp ∈ paramOf x.1 x.2, ∃ rds ∈ decoders.lookup x.1, ∃ row ∈ shown.lookup x.1,
      ∃ s ∈ row.2, s.name = x.2 ∧ (printCall x.1).nr.toNat = x.1 ∧
      Sane (printCall x.1) (kp.2.kind.at kp.1) ∧
      ∃ v ∈ denote (printCall x.1) (kp.2.kind.at kp.1),
        misreads kp.2.reading v (render sampleEnv
          (rds.map fun f => (f.1, evalRd (onExit Props.Event.sampleScratch Props.Event.sampleTask
            (printCall x.1)).args f.2)) s.how) = true := by
    decide +kernel
  intro x hx
  rcases key x hx with h | ⟨⟨k, p⟩, hkp, rds, hrds, row, hrow, s, hs, hname, hn, hsane, v, hv, hbad⟩
  · exact .inl h
  · right
    simp only [Option.mem_def] at hkp hrds hrow hv
    refine ⟨printCall x.1, k, p, hn, hkp, hsane, sampleEnv,
      Props.Event.sampleScratch, Props.Event.sampleTask, sampleEnv_possible,
      Props.Event.sampleScratch_wf, rfl, ?_⟩
    intro tbl lk
    have hwf := wf_onExit Props.Event.sampleScratch Props.Event.sampleTask
      (printCall x.1) Props.Event.sampleScratch_wf rfl
    have hok := ingest_ok tbl lk _ hwf [] rds (by rw [onExit_syscall, hn]; exact hrds)
    rw [List.append_nil] at hok
    refine ⟨_, _, _, hok, by unfold arguments; rw [hrow]; rfl, List.mem_map_of_mem hs, hname, ?_⟩
    intro w hw
    rw [denote_unique hv hw]
    exact misreads_spec hbad

/-- The hypotheses of `c89_arguments_partial` are met, and this is what it says: a `socket` call
with domain 2, type 0x80801 and protocol 6. -/
def socketCall (domain : BitVec 64) : Call :=
  { Props.Event.sampleCall nr.sys_socket with
    args := fun k => if k = 0 then domain else if k = 1 then 0x80801 else 6 }

example : ∃ ev as, ingest (κ := Unit) ⟨[], []⟩ none (.bytes (encode (onExit
      Props.Event.sampleScratch Props.Event.sampleTask (socketCall 2)) ++ [1, 2])) = .ok ev ∧
    arguments sampleEnv (socketCall 2).nr.toNat ev.argv = some as ∧
    as.map (fun a => (a.name, String.ofList a.text)) = [("domain", "AF_INET"),
      ("type", "SOCK_STREAM|SOCK_CLOEXEC|SOCK_NONBLOCK"), ("protocol", "IPPROTO_TCP")] ∧
    ∀ a ∈ as, (nr.sys_socket, a.name) ∉ misprinted := by
  have hwf := wf_onExit Props.Event.sampleScratch Props.Event.sampleTask (socketCall 2)
    Props.Event.sampleScratch_wf rfl
  have hok := ingest_ok (κ := Unit) ⟨[], []⟩ none _ hwf [1, 2] [("family", .c32 0), ("type", .c32 1),
    ("protocol", .c32 2)] (by rw [onExit_syscall]; decide +kernel)
  refine ⟨_, _, hok, rfl, ?_, ?_⟩ <;> decide +kernel

/-- The protocol of a socket of another family gets a name of the internet family:
`socket(AF_NETLINK, …, 6)` (`NETLINK_XFRM`) is printed with `IPPROTO_TCP`. -/
theorem c89_protocol_violated : ∃ ev as, ingest (κ := Unit) ⟨[], []⟩ none (.bytes (encode (onExit
      Props.Event.sampleScratch Props.Event.sampleTask (socketCall 16)) ++ [])) = .ok ev ∧
    arguments sampleEnv (socketCall 16).nr.toNat ev.argv = some as ∧
    ⟨"protocol", "int", "IPPROTO_TCP".toList⟩ ∈ as := by
  have hwf := wf_onExit Props.Event.sampleScratch Props.Event.sampleTask (socketCall 16)
    Props.Event.sampleScratch_wf rfl
  have hok := ingest_ok (κ := Unit) ⟨[], []⟩ none _ hwf [] [("family", .c32 0), ("type", .c32 1),
    ("protocol", .c32 2)] (by rw [onExit_syscall]; decide +kernel)
  refine ⟨_, _, hok, rfl, ?_⟩
  decide +kernel

/-- What is printed for `execve`: the name of the program. -/
theorem c89_execve_partial {κ : Type} (env : Env) (tbl : Syscalls.Syscalls)
    (lk : Option (Int → Option κ)) (scratch : KEvent) (t : Task) (m : Mem)
    (filename argv now : BitVec 64) (extra : List Byte) (hw : scratch.WF) (hc : t.comm.length = 16)
    (hf : ∀ i < 128, (m (filename.toNat + i)).isSome) :
    ∃ ev s rest, ingest tbl lk (.bytes (encode (onExecve scratch t m filename argv now) ++ extra))
        = .ok ev ∧ CStringAt m filename.toNat 128 s ∧
      arguments env nr.sys_execve ev.argv =
        some (⟨"filename", "const char *", s.map fun b => Char.ofNat b.toNat⟩ :: rest) := by
  obtain ⟨ev, hev, ⟨s, hs, hcs⟩, -⟩ :=
    Props.Event.c36_execve_partial tbl lk scratch t m filename argv now extra hw hc hf
  refine ⟨ev, s, [⟨"argv[]", "char * const",
    render env ev.argv (.words ["argv[0]", "argv[1]", "argv[2]", "argv[3]"])⟩], hev, hcs, ?_⟩
  unfold arguments
  rw [show shown.lookup nr.sys_execve = some ("execve", [⟨"filename", "const char *", .text
    "filename"⟩, ⟨"argv[]", "char * const", .words ["argv[0]", "argv[1]", "argv[2]", "argv[3]"]⟩])
    by decide +kernel]
  simp only [Option.map_some, List.map_cons, List.map_nil, render, strOf, hs]
  rfl

/-- `execve("/a", {"a", "-b", NULL})` is printed with `-b` as the first word of `argv[]`. -/
theorem c89_execve_violated (env : Env) (tbl : Syscalls.Syscalls)
    (lk : Option (Int → Option Unit)) (scratch : KEvent) (t : Task) (now : BitVec 64)
    (hw : scratch.WF) (hc : t.comm.length = 16) :
    Holds Props.Event.execMem 8 (leBytes 8 300) ∧
    CStringAt Props.Event.execMem 300 128 [97] ∧
    ∃ ev file ctype rest,
      ingest tbl lk (.bytes (encode (onExecve scratch t Props.Event.execMem 900 8 now))) = .ok ev ∧
      arguments env nr.sys_execve ev.argv =
        some [file, ⟨"argv[]", ctype, "-b ".toList ++ rest⟩] := by
  obtain ⟨h1, h2, -, -, -, h⟩ := Props.Event.c36_execve_violated
  obtain ⟨ev, hev, hl⟩ := h tbl lk scratch t now hw hc
  have e : arguments env nr.sys_execve ev.argv = some [⟨"filename", "const char *",
      render env ev.argv (.text "filename")⟩, ⟨"argv[]", "char * const", render env ev.argv (.words
        ["argv[0]", "argv[1]", "argv[2]", "argv[3]"])⟩] := by
    unfold arguments
    rw [show shown.lookup nr.sys_execve = some ("execve", [⟨"filename", "const char *", .text
      "filename"⟩, ⟨"argv[]", "char * const", .words
        ["argv[0]", "argv[1]", "argv[2]", "argv[3]"]⟩]) by decide +kernel]
    rfl
  have e2 : ∃ rest, render env ev.argv (.words ["argv[0]", "argv[1]", "argv[2]", "argv[3]"]) =
      "-b ".toList ++ rest := by
    refine ⟨join [' '] (["argv[1]", "argv[2]", "argv[3]"].map fun f => chars (strOf ev.argv f)), ?_⟩
    simp only [render, List.map_cons, List.map_nil, join]
    rw [show strOf ev.argv "argv[0]" = [45, 98] by unfold strOf; rw [hl]]
    rw [show chars [45, 98] = ['-', 'b'] by decide +kernel,
      show "-b ".toList = ['-', 'b', ' '] by decide +kernel]
    rfl
  obtain ⟨rest, hrest⟩ := e2
  exact ⟨h1, h2, ev, _, _, rest, hev, by rw [e, hrest]⟩

end Swoll.Props.Print
