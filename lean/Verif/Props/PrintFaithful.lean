import Verif.Lemmas.PrintFaithful
import Verif.Props.PrintLine
/-
C90: what is printed tells calls apart.
-/
namespace Swoll.Props.PrintFaithful
open Swoll.Bytes Swoll.Event Swoll.Flags Swoll.Print Swoll.Spec.Event Swoll.Spec.Print
open Swoll.Lemmas.Flags Swoll.Lemmas.Event Swoll.Lemmas.Print
open Swoll.Props.Print (Possible sampleEnv sampleEnv_possible)
open Swoll.Props.Event (sampleScratch sampleScratch_wf sampleTask)

/-! ### C90: different arguments look different -/

/-- If an argument of two calls of a system call is printed with the same text, both programs
passed the same thing there, whatever else they passed, whoever they are, and however the maps of
names were iterated.

Partial: outside `misprinted`; and `Same` has exceptions: bits of a mode above the permissions
(`c90_mode_violated`), flags without a name, protocols of families other than the internet's,
options of different levels, and addresses that are neither IPv4 nor a path. -/
theorem c90_arguments_partial {κ : Type} (env₁ env₂ : Env) (he₁ : Possible env₁)
    (he₂ : Possible env₂) (tbl₁ tbl₂ : Syscalls.Syscalls) (lk₁ lk₂ : Option (Int → Option κ))
    (s₁ s₂ : KEvent) (t₁ t₂ : Task) (c₁ c₂ : Call) (x₁ x₂ : List Byte)
    (hw₁ : s₁.WF) (hw₂ : s₂.WF) (hc₁ : t₁.comm.length = 16) (hc₂ : t₂.comm.length = 16)
    (ev₁ ev₂ : TraceEvent κ)
    (hev₁ : ingest tbl₁ lk₁ (.bytes (encode (onExit s₁ t₁ c₁) ++ x₁)) = .ok ev₁)
    (hev₂ : ingest tbl₂ lk₂ (.bytes (encode (onExit s₂ t₂ c₂) ++ x₂)) = .ok ev₂)
    (hn : c₁.nr = c₂.nr) (hx : c₁.nr.toNat ≠ nr.sys_execve) (as₁ as₂ : List PArg)
    (has₁ : arguments env₁ c₁.nr.toNat ev₁.argv = some as₁)
    (has₂ : arguments env₂ c₂.nr.toNat ev₂.argv = some as₂)
    (a₁ a₂ : PArg) (ha₁ : a₁ ∈ as₁) (ha₂ : a₂ ∈ as₂) (hname : a₁.name = a₂.name)
    (htext : a₁.text = a₂.text) (hm : (c₁.nr.toNat, a₁.name) ∉ misprinted) :
    ∃ k p, paramOf c₁.nr.toNat a₁.name = some (k, p) ∧
      (Sane c₁ (p.kind.at k) → Sane c₂ (p.kind.at k) → ∀ v₁ v₂,
        Means c₁ (p.kind.at k) v₁ → Means c₂ (p.kind.at k) v₂ → Same c₁ c₂ p.reading v₁ v₂) := by
  obtain ⟨k, p, hkp, h1⟩ := Props.Print.c89_arguments_partial env₁ he₁ tbl₁ lk₁ s₁ t₁ c₁ x₁ hw₁ hc₁
    ev₁ hev₁ hx as₁ has₁ a₁ ha₁ hm
  obtain ⟨k', p', hkp', h2⟩ := Props.Print.c89_arguments_partial env₂ he₂ tbl₂ lk₂ s₂ t₂ c₂ x₂ hw₂ hc₂
    ev₂ hev₂ (hn ▸ hx) as₂ has₂ a₂ ha₂ (by rw [← hn, ← hname]; exact hm)
  rw [← hn, ← hname, hkp] at hkp'
  cases hkp'
  refine ⟨k, p, hkp, fun sane1 sane2 v₁ v₂ m1 m2 => ?_⟩
  obtain ⟨w₁, n1, r1⟩ := h1 sane1
  obtain ⟨w₂, n2, r2⟩ := h2 sane2
  rw [means_unique sane1 m1 n1, means_unique sane2 m2 n2]
  refine reads_same ?_ r1 (htext ▸ r2)
  unfold paramOf at hkp
  rw [Option.bind_eq_some_iff] at hkp
  obtain ⟨ps, hps, hf⟩ := hkp
  exact delimited_all _ (lookup_mem hps) p (List.of_mem_zip (List.mem_of_find?_eq_some hf)).2

/-- A call with some memory at 4096. -/
def memCall (n : Nat) (args : List Nat) (bytes : List Byte) : Call :=
  { nr := BitVec.ofNat 32 n, args := fun k => BitVec.ofNat 64 (args.getD k 0)
    uid := 0, gid := 0, start := 0, ret := 0, finish := 0
    mem := fun a => some (bytes.getD (a - 4096) 0) }

/-- What is printed for the arguments of a call. -/
def printedArgs (tbl : Syscalls.Syscalls) (c : Call) : Option (List PArg) :=
  match ingest (κ := Unit) tbl none (.bytes (encode (onExit sampleScratch sampleTask c))) with
  | .ok ev => arguments sampleEnv c.nr.toNat ev.argv
  | _ => none

theorem printedArgs_eq (tbl : Syscalls.Syscalls) (c : Call) (fields : List (String × Rd))
    (h : decoders.lookup c.nr.toNat = some fields) : printedArgs tbl c =
      arguments sampleEnv c.nr.toNat (fields.map fun f => (f.1, evalRd (onExit sampleScratch
        sampleTask c).args f.2)) := by
  have hwf := wf_onExit sampleScratch sampleTask c sampleScratch_wf rfl
  have := ingest_ok (κ := Unit) tbl none _ hwf [] fields (by rw [onExit_syscall]; exact h)
  rw [List.append_nil] at this
  unfold printedArgs
  rw [this]
  rfl

/-- The hypotheses are met by two calls of `kill` that differ in one argument; the texts of the
other are equal and those of this one are not. -/
example : (∃ a b, printedArgs ⟨[], []⟩ (memCall nr.sys_kill [5, 9] []) = some [a, b] ∧
      a.name = "pid" ∧ a.text = ['5'] ∧ b.text = ['9']) ∧
    (∃ a b, printedArgs ⟨[], []⟩ (memCall nr.sys_kill [5, 15] []) = some [a, b] ∧
      a.name = "pid" ∧ a.text = ['5'] ∧ b.text = ['1', '5']) ∧
    (nr.sys_kill, "pid") ∉ misprinted ∧
    (∃ k p, paramOf nr.sys_kill "pid" = some (k, p) ∧
      Sane (memCall nr.sys_kill [5, 9] []) (p.kind.at k)) := by
  rw [printedArgs_eq _ _ [("pid", .c32 0), ("sig", .c32 1)]
    (by show decoders.lookup 62 = _; decide +kernel),
    printedArgs_eq _ _ [("pid", .c32 0), ("sig", .c32 1)]
    (by show decoders.lookup 62 = _; decide +kernel)]
  refine ⟨⟨⟨"pid", "pid_t", ['5']⟩, ⟨"sig", "int", ['9']⟩, ?_⟩,
    ⟨⟨"pid", "pid_t", ['5']⟩, ⟨"sig", "int", ['1', '5']⟩, ?_⟩, ?_,
    ⟨0, ⟨["pid"], .int, .number⟩, ?_, ?_⟩⟩ <;> decide +kernel

/-- `mkdir("", 01777)`, for everybody but with the sticky bit, looks like `mkdir("", 0777)`. -/
theorem c90_mode_violated (tbl : Syscalls.Syscalls) : ∃ as,
    printedArgs tbl (memCall nr.sys_mkdir [4096, 0o1777] []) = some as ∧
    printedArgs tbl (memCall nr.sys_mkdir [4096, 0o777] []) = some as := by
  refine ⟨[⟨"pathname", "const char *", []⟩, ⟨"mode", "mode_t", "-rwxrwxrwx".toList⟩], ?_, ?_⟩ <;>
  · rw [printedArgs_eq _ _ [("pathname", .cstr 0), ("mode", .cu32 1)]
      (by show decoders.lookup 83 = _; decide +kernel)]
    decide +kernel

/-- Bytes of a text. -/
def bytes (s : String) : List Byte := s.toList.map fun c => UInt8.ofNat c.toNat

/-- Renaming one file to another: the paths follow one another in memory. -/
def renameCall (old new : String) : Call :=
  memCall nr.sys_rename [4096, 4096 + old.length + 1] (bytes old ++ [0] ++ bytes new)

/-- Arguments run into each other in a printed line: two renamings of different files to different
files print the same between the parentheses. -/
theorem c90_line_violated (tbl : Syscalls.Syscalls) :
    ∃ as₁ as₂, printedArgs tbl (renameCall "a, (const char *)newpath=b" "c") = some as₁ ∧
      printedArgs tbl (renameCall "a" "b, (const char *)newpath=c") = some as₂ ∧
      argsText as₁ = argsText as₂ ∧
      as₁.map (·.text) ≠ as₂.map (·.text) := by
  rw [printedArgs_eq _ _ [("old_name", .cstr 0), ("new_name", .cstr 1)]
    (by show decoders.lookup 82 = _; decide +kernel),
    printedArgs_eq _ _ [("old_name", .cstr 0), ("new_name", .cstr 1)]
    (by show decoders.lookup 82 = _; decide +kernel)]
  refine ⟨[⟨"oldpath", "const char *", "a, (const char *)newpath=b".toList⟩,
    ⟨"newpath", "const char *", "c".toList⟩], [⟨"oldpath", "const char *", "a".toList⟩,
    ⟨"newpath", "const char *", "b, (const char *)newpath=c".toList⟩], ?_, ?_, ?_, ?_⟩ <;>
  decide +kernel

/-- The vector of `execve` at 8, with three strings and the name of the program. -/
def wordsMem (w₁ w₂ : String) : Mem := fun a =>
  if 8 ≤ a ∧ a < 48 then (leBytes 8 300 ++ leBytes 8 400 ++ leBytes 8 600 ++ leBytes 8 0 ++
    leBytes 8 0)[a - 8]?
  else if 300 ≤ a ∧ a < 302 then [(120 : Byte), 0][a - 300]?
  else if 400 ≤ a ∧ a < 600 then some ((bytes w₁).getD (a - 400) 0)
  else if 600 ≤ a ∧ a < 800 then some ((bytes w₂).getD (a - 600) 0)
  else some 0

/-- The words of a command run into each other: `execve(…, {"x", "a b", "c"})` looks like
`execve(…, {"x", "a", "b c"})`. -/
theorem c90_words_violated (env : Env) (tbl : Syscalls.Syscalls)
    (lk : Option (Int → Option Unit)) : ∃ ev₁ ev₂ as,
    ingest tbl lk (.bytes (encode (onExecve sampleScratch sampleTask (wordsMem "a b" "c") 900 8 0)
      ++ [])) = .ok ev₁ ∧
    ingest tbl lk (.bytes (encode (onExecve sampleScratch sampleTask (wordsMem "a" "b c") 900 8 0)
      ++ [])) = .ok ev₂ ∧
    arguments env nr.sys_execve ev₁.argv = some as ∧
    arguments env nr.sys_execve ev₂.argv = some as := by
  have hl : decoders.lookup nr.sys_execve = some [("filename", .cstr 0), ("argv[0]", .cstr 1),
    ("argv[1]", .cstr 2), ("argv[2]", .cstr 3), ("argv[3]", .empty)] := by decide +kernel
  have ok := fun m => ingest_ok tbl lk _
    (execve_args sampleScratch sampleTask m 900 8 0 sampleScratch_wf rfl).1 [] _
    (show decoders.lookup nr.sys_execve = _ from hl)
  have e : ∀ argv, arguments env nr.sys_execve argv = arguments sampleEnv nr.sys_execve argv :=
    fun _ => rfl
  refine ⟨_, _, [⟨"filename", "const char *", []⟩, ⟨"argv[]", "char * const", "a b c  ".toList⟩],
    ok _, ok _, ?_, ?_⟩ <;> rw [e]
  · show arguments sampleEnv nr.sys_execve ([("filename", Rd.cstr 0), ("argv[0]", .cstr 1),
      ("argv[1]", .cstr 2), ("argv[2]", .cstr 3), ("argv[3]", .empty)].map fun f => (f.1, evalRd
      (onExecve sampleScratch sampleTask (wordsMem "a b" "c") 900 8 0).args f.2)) = _
    decide +kernel
  · show arguments sampleEnv nr.sys_execve ([("filename", Rd.cstr 0), ("argv[0]", .cstr 1),
      ("argv[1]", .cstr 2), ("argv[2]", .cstr 3), ("argv[3]", .empty)].map fun f => (f.1, evalRd
      (onExecve sampleScratch sampleTask (wordsMem "a" "b c") 900 8 0).args f.2)) = _
    decide +kernel

end Swoll.Props.PrintFaithful
