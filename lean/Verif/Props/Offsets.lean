import Verif.Lemmas.Offsets
/-
C51: setting kernel offsets. C52: detecting them. C53: the kernel's symbol file.
-/
namespace Swoll.Props.Offsets
open Swoll Swoll.Offsets Swoll.Spec.Offsets Swoll.Lemmas.Offsets
open Swoll.JobArgs (Str)

/-! ### C51 -/

/-- C51: an offset set by name is the one the probe uses from then on, and the other one stays as
it was. `d` is the offset compiled into the probe. -/
theorem c51_stored (m : Config) (v d : BitVec 32) :
    (∃ m', setOffset true (.name "nsproxy".toList) v m = (true, m') ∧
      nsproxyOffset m' d = v ∧ pidnsOffset m' d = pidnsOffset m d) ∧
    (∃ m', setOffset true (.name "pid_ns_common".toList) v m = (true, m') ∧
      pidnsOffset m' d = v ∧ nsproxyOffset m' d = nsproxyOffset m d) := by
  refine ⟨⟨_, set_name realType_ns (by decide) v m, ?_, ?_⟩,
    ⟨_, set_name realType_pid (by decide) v m, ?_, ?_⟩⟩
  · unfold nsproxyOffset; rw [GoMap.get_set]; simp
  · unfold pidnsOffset; rw [GoMap.get_set_other _ _ (by decide)]
  · unfold pidnsOffset; rw [GoMap.get_set]; simp
  · unfold nsproxyOffset; rw [GoMap.get_set_other _ _ (by decide)]

/-- C51: any other name is refused, and nothing changes; nor does anything if there is an error. -/
theorem c51_unknown {s : Str} (h1 : s ≠ "nsproxy".toList) (h2 : s ≠ "pid_ns_common".toList)
    (up : Bool) (v : BitVec 32) (m : Config) : setOffset up (.name s) v m = (false, m) := by
  unfold setOffset
  rw [if_neg]
  simp only [realType, h1, h2, if_false]
  decide

theorem c51_error {up : Bool} {t : Which} {v : BitVec 32} {m m' : Config}
    (h : setOffset up t v m = (false, m')) : m' = m := by
  unfold setOffset at h
  split at h
  · split at h
    · injection h with h; cases h
    · injection h with _ h; exact h.symm
  · injection h with _ h; exact h.symm

example : "nsprox".toList ≠ "nsproxy".toList ∧ "nsprox".toList ≠ "pid_ns_common".toList := by decide

/-- C51 for the flags: an offset given in hexadecimal, in small or capital letters, with or without 0x, is
the one the probe uses, if it fits 32 bits; a flag that is not given changes nothing. -/
theorem c51_flags (m : Config) (d : BitVec 32) {n p : Nat} (hn : n < 2 ^ 32) (hp : p < 2 ^ 32)
    (x y : Bool) {tn tp : Str} (htn : tn.map Char.toLower = Nat.toDigits 16 n)
    (htp : tp.map Char.toLower = Nat.toDigits 16 p) :
    let text := fun (x : Bool) t => (if x then "0x".toList else []) ++ t
    ∃ m', setArgs true (text x tn) (text y tp) m = (true, m') ∧
      (nsproxyOffset m' d).toNat = n ∧ (pidnsOffset m' d).toNat = p := by
  intro text
  have one : ∀ {x : Bool} {n : Nat} {t : Str} (which : Str) (m : Config), n < 2 ^ 32 →
      t.map Char.toLower = Nat.toDigits 16 n →
      setArg true which (text x t) m = setOffset true (.name which) (BitVec.ofNat 32 n) m := by
    intro x n t which m hn ht
    have hne : text x t ≠ [] := by
      dsimp only [text]
      intro h
      rw [(List.append_eq_nil_iff.1 h).2] at ht
      exact toDigits_ne_nil n ht.symm
    have htrim : trim0x (text x t) = t := by
      cases x with
      | true => exact trim0x_prefix _
      | false => exact trim0x_case ht
    unfold setArg
    rw [if_neg hne, htrim, parseHex_case ht (by omega)]
    dsimp only
    rw [ofInt_natCast]
  have e : setArgs true (text x tn) (text y tp) m =
      (true, (m.set nsProxy (BitVec.ofNat 32 n)).set pidNSCommon (BitVec.ofNat 32 p)) := by
    unfold setArgs
    rw [one _ m hn htn, set_name realType_ns (by decide)]
    dsimp only
    rw [one _ _ hp htp, set_name realType_pid (by decide)]
  refine ⟨_, e, ?_, ?_⟩
  · unfold nsproxyOffset
    rw [GoMap.get_set_other _ _ (by decide), GoMap.get_set]
    simpa using Nat.mod_eq_of_lt hn
  · unfold pidnsOffset
    rw [GoMap.get_set]
    simpa using Nat.mod_eq_of_lt hp

theorem c51_flags_absent (up : Bool) (m : Config) : setArgs up [] [] m = (true, m) := rfl

example : "aF8".toList.map Char.toLower = Nat.toDigits 16 0xaf8 ∧ 0xaf8 < 2 ^ 32 := by decide

/-- C51 for the flags: what is not a number in hexadecimal, with or without a sign and 0x, is refused, and the
first offset is not touched then. -/
theorem c51_flags_refused (up : Bool) (ns pid : Str) (m : Config) :
    ((setArgs up ns pid m).1 = true → ∀ v ∈ [ns, pid], v = [] ∨ ∃ x sg ds, v = x ++ sg ++ ds ∧ x ∈ [[], "0x".toList] ∧
      sg ∈ [[], ['+'], ['-']] ∧ ds ≠ [] ∧ ∀ c ∈ ds, c ∈ "0123456789abcdefABCDEF".toList) ∧
    ((setArg up "nsproxy".toList ns m).1 = false → setArgs up ns pid m = (false, m)) := by
  have hex : ∀ c, hexDigit c ≠ none → c ∈ "0123456789abcdefABCDEF".toList := by
    intro c h
    have hc : (48 ≤ c.toNat ∧ c.toNat ≤ 57) ∨ (97 ≤ c.toNat ∧ c.toNat ≤ 102) ∨ (65 ≤ c.toNat ∧ c.toNat ≤ 70) := by
      unfold hexDigit at h
      split at h
      · left; assumption
      · split at h
        · right; left; assumption
        · split at h
          · right; right; assumption
          · exact absurd rfl h
    have : ∀ n, n ≤ 102 → ((48 ≤ n ∧ n ≤ 57) ∨ (97 ≤ n ∧ n ≤ 102) ∨ (65 ≤ n ∧ n ≤ 70)) →
        Char.ofNat n ∈ "0123456789abcdefABCDEF".toList := by decide +kernel
    have h2 := this c.toNat (by omega) hc
    rwa [Char.ofNat_toNat] at h2
  have hexs : ∀ (ds : Str) (n k : Nat), hexDigits n ds = some k → ∀ c ∈ ds, c ∈ "0123456789abcdefABCDEF".toList := by
    intro ds
    induction ds with
    | nil => intro n k _ c hc; cases hc
    | cons d ds ih =>
      intro n k h c hc
      unfold hexDigits at h
      cases hd : hexDigit d with
      | none => rw [hd] at h; cases h
      | some x =>
        rw [hd] at h
        rcases List.mem_cons.1 hc with rfl | hc
        · exact hex _ (by rw [hd]; simp)
        · exact ih _ _ h c hc
  have one : ∀ (which v : Str) (m : Config), (setArg up which v m).1 = true → v = [] ∨ ∃ x sg ds, v = x ++ sg ++ ds ∧
      x ∈ [[], "0x".toList] ∧ sg ∈ [[], ['+'], ['-']] ∧ ds ≠ [] ∧ ∀ c ∈ ds, c ∈ "0123456789abcdefABCDEF".toList := by
    intro which v m h
    by_cases hv : v = []
    · exact .inl hv
    · right
      unfold setArg at h
      rw [if_neg hv] at h
      cases hp : parseHex (trim0x v) with
      | none => rw [hp] at h; cases h
      | some n =>
        obtain ⟨x, hx, hx'⟩ : ∃ x, v = x ++ trim0x v ∧ x ∈ [[], "0x".toList] := by
          unfold trim0x
          split
          · next hpre =>
            obtain ⟨t, ht⟩ := List.isPrefixOf_iff_prefix.1 hpre
            refine ⟨"0x".toList, ?_, by simp⟩
            rw [← ht]
            rfl
          · exact ⟨[], rfl, by simp⟩
        obtain ⟨sg, hsg, hsg'⟩ : ∃ sg, trim0x v = sg ++ (JobArgs.sign (trim0x v)).2 ∧ sg ∈ [[], ['+'], ['-']] := by
          generalize trim0x v = t
          cases t with
          | nil => exact ⟨[], rfl, by simp⟩
          | cons c d =>
            unfold JobArgs.sign
            dsimp only
            split
            · next e => subst e; exact ⟨['-'], rfl, by simp⟩
            · split
              · next e => subst e; exact ⟨['+'], rfl, by simp⟩
              · exact ⟨[], rfl, by simp⟩
        refine ⟨x, sg, (JobArgs.sign (trim0x v)).2, ?_, hx', hsg', ?_, ?_⟩
        · rw [List.append_assoc, ← hsg]; exact hx
        · intro e
          unfold parseHex at hp
          rw [if_pos e] at hp
          cases hp
        · unfold parseHex at hp
          split at hp
          · cases hp
          · cases hd : hexDigits 0 (JobArgs.sign (trim0x v)).2 with
            | none => rw [hd] at hp; cases hp
            | some k => exact hexs _ _ _ hd
  have keep : ∀ (which v : Str) (m : Config), (setArg up which v m).1 = false → (setArg up which v m).2 = m := by
    intro which v m h
    unfold setArg at h ⊢
    split at h
    · cases h
    · next hv =>
      rw [if_neg hv]
      split at h
      · rfl
      · next n e =>
        unfold setOffset at h ⊢
        split at h
        · next h1 =>
          rw [if_pos h1]
          split at h
          · cases h
          · next h2 => rw [if_neg h2]
        · next h1 => rw [if_neg h1]
  constructor
  · intro h v hv
    unfold setArgs at h
    split at h
    · cases h
    · next m' e =>
      simp only [List.mem_cons, List.not_mem_nil, or_false] at hv
      rcases hv with rfl | rfl
      · exact one _ _ m (by rw [e])
      · exact one _ _ m' h
  · intro h
    unfold setArgs
    split
    · next m' e =>
      have := keep "nsproxy".toList ns m h
      rw [e] at this
      rw [← this]
    · next m' e => rw [e] at h; cases h

example : (setArgs true "xyz".toList [] []).1 = false ∧ (setArgs true [] "0x".toList []).1 = false ∧
    (setArgs true "0x-1f".toList [] []).1 = true := by decide

/-- Beside C51: a larger number is not refused; 32 bits of it are stored. -/
theorem c51_flag_truncated_violated {n : Nat} (hn : n < 2 ^ 63) (m : Config) (d : BitVec 32) :
    ∃ m', setArgs true (Nat.toDigits 16 n) [] m = (true, m') ∧
      (nsproxyOffset m' d).toNat = n % 2 ^ 32 := by
  have e : setArgs true (Nat.toDigits 16 n) [] m = (true, m.set nsProxy (BitVec.ofNat 32 n)) := by
    unfold setArgs setArg
    rw [if_neg (toDigits_ne_nil n), trim0x_toDigits, parseHex_toDigits hn]
    dsimp only
    rw [ofInt_natCast, set_name realType_ns (by decide)]
    rfl
  refine ⟨_, e, ?_⟩
  unfold nsproxyOffset
  rw [GoMap.get_set]
  simp

example : (0x100000008 : Nat) < 2 ^ 63 ∧ 0x100000008 % 2 ^ 32 = 8 := by decide

/-- Beside C51: a type given as an int is cut to a byte, so 257 is taken for nsproxy. -/
theorem c51_int_violated (m : Config) (v d : BitVec 32) : ∃ m',
    setOffset true (.int 257) v m = (true, m') ∧ nsproxyOffset m' d = v :=
  ⟨m.set nsProxy v, rfl, by unfold nsproxyOffset; rw [GoMap.get_set]; simp⟩

/-! ### C53 -/

/-- C53, for a file of lines that are not too long: the address a name has is that of the last line
that lists a function of this name, and without such a line it has none. Missing: malformed
lines (below). -/
theorem c53_lookup_partial {ls : List Str} (hl : ∀ l ∈ ls, '\n' ∉ l ∧ '\r' ∉ l ∧ l.length ≤ 65535)
    (hw : ∀ l ∈ ls, WellFormed l) :
    ∃ syms, parseKernelSyms (ls.flatMap (· ++ ['\n'])) = some syms ∧
      ∀ name addr, syms.get name = some addr ↔
        ∃ a l b, ls = a ++ l :: b ∧ Lists l name addr ∧ ∀ l' ∈ b, ∀ x, ¬ Lists l' name x := by
  unfold parseKernelSyms
  rw [scan_lines hl]
  cases h : ls.foldlM symLine [] with
  | none =>
    obtain ⟨l, hl, hn⟩ := foldlM_none.1 h
    exact absurd (hw l hl) hn
  | some syms =>
    refine ⟨syms, rfl, fun name addr => ?_⟩
    rcases foldlM_get h name with ⟨a, l, b, x, e, h1, h2, h3⟩ | ⟨h1, h2⟩
    · rw [h3]
      constructor
      · intro hx
        injection hx with hx
        subst hx
        exact ⟨a, l, b, e, h1, h2⟩
      · rintro ⟨a', l', b', e', h1', h2'⟩
        have hab : l = l' := by
          have := e.symm.trans e'
          rcases List.append_eq_append_iff.1 this with ⟨t, ht, hr⟩ | ⟨t, ht, hr⟩
          · cases t with
            | nil => injection hr
            | cons y t =>
              injection hr with _ hr
              exact absurd h1' (h2 l' (by rw [hr]; simp) addr)
          · cases t with
            | nil => injection hr with hr; exact hr.symm
            | cons y t =>
              injection hr with _ hr
              exact absurd h1 (h2' l (by rw [hr]; simp) x)
        subst hab
        obtain ⟨t, r, f, _⟩ := h1
        obtain ⟨t', r', f', _⟩ := h1'
        rw [f] at f'
        injection f' with f'
        rw [f']
    · rw [h2]
      constructor
      · intro hx; cases hx
      · rintro ⟨a, l, b, e, h3, _⟩
        exact absurd h3 (h1 l (by rw [e]; simp) addr)

example : let ls := ["ffffffff81000000 T startup_64".toList, "ffffffff810001a0 t do_one\t[mod]".toList,
      "ffffffff81000200 D some_data".toList]
    (∀ l ∈ ls, '\n' ∉ l ∧ '\r' ∉ l ∧ l.length ≤ 65535) ∧ ∀ l ∈ ls, WellFormed l := by
  unfold WellFormed; decide +kernel

/-- C53, but the parser crashes exactly when it meets a malformed line: one of fewer than two
fields, such as an empty one, or a function without a name. -/
theorem c53_malformed_violated (text : Str) :
    parseKernelSyms text = none ↔ ∃ l ∈ scan text, ¬ WellFormed l := foldlM_none

example : parseKernelSyms "ffffffff81000000 T startup_64\n\n".toList = none := by decide +kernel
example : parseKernelSyms "ffffffff81000000 T\n".toList = none := by decide +kernel

/-! ### C52 -/

/-- What the search for a load after the lock finds is one, and it finds one if there is one. -/
theorem c52_nsproxy_search (lock code : Str) :
    (∀ o ∈ nsproxyFound lock code, LoadAfterLock lock (scan code) o) ∧
    ((∃ o, LoadAfterLock lock (scan code) o) → ∃ o, nsproxyFound lock code = [o]) := by
  unfold nsproxyFound
  constructor
  · intro o ho
    split at ho
    · cases ho
    · next h =>
      rw [List.mem_singleton] at ho
      rw [ho]
      exact nsproxySearch_sound h
  · rintro ⟨o, ho⟩
    have := nsproxySearch_complete ho
    split
    · next h => exact absurd h this
    · exact ⟨_, rfl⟩

/-- The search for loads of addresses finds one in each line that has one, and no other. -/
theorem c52_pidns_search (code : Str) :
    (∀ o ∈ pidnsFound code, ∃ l ∈ scan code, LeaLoad l o) ∧
    (∀ l ∈ scan code, (∃ o, LeaLoad l o) → ∃ o ∈ pidnsFound code, LeaLoad l o) := by
  constructor
  · intro o ho
    obtain ⟨l, hl, h⟩ := List.mem_filterMap.1 ho
    exact ⟨l, hl, findLea_sound h⟩
  · rintro l hl ⟨o, ho⟩
    obtain ⟨o', h'⟩ := findLea_complete ho
    exact ⟨o', List.mem_filterMap.2 ⟨l, hl, h'⟩, findLea_sound h'⟩

/-- A kernel whose functions all have the code `code`. -/
def someWorld (code : String) : World :=
  { kallsyms := some (("_raw_spin_lock".toList :: (nsProxyProbeSymbols ++ pidNsProbeSymbols)).flatMap
      fun n => "ffffffff81a T ".toList ++ n ++ ['\n'])
    dump := fun _ => some code.toList
    order := id
    configMap := true, upNs := true, upPid := true }

def someCode : String :=
  "ffffffff81a0: e8 call 0xffffffff81a\nffffffff81a5: mov    rax,QWORD PTR [rbx+0xaf8]\n" ++
  "ffffffff81a9: lea    rax,[rdi+0x88]\n"

example : (∃ o, nsproxyFound "ffffffff81a".toList someCode.toList = [o]) ∧
    pidnsFound someCode.toList = ["0x88".toList] := ⟨⟨"0xaf8".toList, by decide +kernel⟩, by decide +kernel⟩

/-- C52: if detection succeeds, then either one of the searches found nothing, and no offset was
changed, or both were set, each to an offset found most often in the code of the kernel. Missing:
that the first case is an error, as it should be (it is not, below). -/
theorem c52_success_partial {w : World} (hw : AnyOrder w) {m m' : Config}
    (h : detect w m = (.ok, m')) :
    ∃ text syms nsCode, w.kallsyms = some text ∧ parseKernelSyms text = some syms ∧
      Dumped w syms nsProxyProbeSymbols nsCode ∧
      let ns := nsCode.flatMap (nsproxyFound ((syms.get "_raw_spin_lock".toList).getD []))
      (ns = [] ∧ m' = m) ∨ ∃ pidCode, Dumped w syms pidNsProbeSymbols pidCode ∧
        let pid := pidCode.flatMap pidnsFound
        (pid = [] ∧ m' = m) ∨
        ∃ a b x y, MostFrequent ns a ∧ MostFrequent pid b ∧
          parseHex (trim0x a) = some x ∧ parseHex (trim0x b) = some y ∧
          ∀ d, nsproxyOffset m' d = BitVec.ofInt 32 x ∧ pidnsOffset m' d = BitVec.ofInt 32 y := by
  unfold detect at h
  split at h
  · cases h
  · next text ht =>
    split at h
    · cases h
    · next syms hs =>
      cases h1 : likely w syms (nsproxyFound ((syms.get "_raw_spin_lock".toList).getD []))
          nsProxyProbeSymbols with
      | none => rw [h1] at h; cases h
      | some a =>
        obtain ⟨nsCode, hd⟩ := likely_none h1
        refine ⟨text, syms, nsCode, ht, hs, hd, ?_⟩
        obtain ⟨a', e, hnil, hmost⟩ := likely_eq hw
          (found := nsproxyFound ((syms.get "_raw_spin_lock".toList).getD [])) hd
        rw [h1] at e
        injection e with e
        subst e
        intro ns
        by_cases hns : ns = []
        · left
          refine ⟨hns, ?_⟩
          rw [h1, hnil hns] at h
          injection h with _ h
          exact h.symm
        · right
          have ma := hmost hns
          have ha : a ≠ [] := by
            obtain ⟨code, _, hc⟩ := List.mem_flatMap.1 ma.1
            exact nsproxyFound_ne a hc
          rw [h1] at h
          cases a with
          | nil => exact absurd rfl ha
          | cons a0 a =>
            dsimp only at h
            cases h2 : likely w syms pidnsFound pidNsProbeSymbols with
            | none => rw [h2] at h; cases h
            | some b =>
              obtain ⟨pidCode, hd'⟩ := likely_none h2
              refine ⟨pidCode, hd', ?_⟩
              obtain ⟨b', e, hnil', hmost'⟩ := likely_eq hw (found := pidnsFound) hd'
              rw [h2] at e
              injection e with e
              subst e
              intro pid
              by_cases hpid : pid = []
              · left
                refine ⟨hpid, ?_⟩
                rw [h2, hnil' hpid] at h
                injection h with _ h
                exact h.symm
              · right
                have mb := hmost' hpid
                have hb : b ≠ [] := by
                  obtain ⟨code, _, hc⟩ := List.mem_flatMap.1 mb.1
                  exact pidnsFound_ne b hc
                rw [h2] at h
                cases b with
                | nil => exact absurd rfl hb
                | cons b0 b =>
                  dsimp only at h
                  obtain ⟨x, y, hx, hy, e⟩ := parseAndSet_ok h
                  refine ⟨_, _, x, y, ma, mb, hx, hy, fun d => ?_⟩
                  rw [e]
                  unfold nsproxyOffset pidnsOffset
                  rw [GoMap.get_set_other _ _ (by decide), GoMap.get_set, GoMap.get_set]
                  simp

example : AnyOrder (someWorld someCode) ∧
    detect (someWorld someCode) [] = (.ok, [(2, 0x88), (1, 0xaf8)]) :=
  ⟨fun _ => List.Perm.refl _, by decide +kernel⟩

/-- C52: if in both searches one offset is found more often than any other, detection succeeds and
sets these two, in whatever order Go's maps are read. -/
theorem c52_detects {w : World} (hw : AnyOrder w) (hc : w.configMap = true) (h1 : w.upNs = true)
    (h2 : w.upPid = true) {text : Str} {syms : GoMap Str Str} {nsCode pidCode : List Str} {x y : Nat}
    (ht : w.kallsyms = some text) (hs : parseKernelSyms text = some syms)
    (hd1 : Dumped w syms nsProxyProbeSymbols nsCode) (hd2 : Dumped w syms pidNsProbeSymbols pidCode)
    (hx : x < 2 ^ 32) (hy : y < 2 ^ 32)
    (ha : let ns := nsCode.flatMap (nsproxyFound ((syms.get "_raw_spin_lock".toList).getD []))
      "0x".toList ++ Nat.toDigits 16 x ∈ ns ∧ ∀ o, o ≠ "0x".toList ++ Nat.toDigits 16 x →
        ns.count o < ns.count ("0x".toList ++ Nat.toDigits 16 x))
    (hb : let pid := pidCode.flatMap pidnsFound
      "0x".toList ++ Nat.toDigits 16 y ∈ pid ∧ ∀ o, o ≠ "0x".toList ++ Nat.toDigits 16 y →
        pid.count o < pid.count ("0x".toList ++ Nat.toDigits 16 y)) (m : Config) :
    ∃ m', detect w m = (.ok, m') ∧ ∀ d, nsproxyOffset m' d = BitVec.ofNat 32 x ∧
      pidnsOffset m' d = BitVec.ofNat 32 y := by
  have pick : ∀ {l : List Str} {a o : Str}, a ∈ l → (∀ o, o ≠ a → l.count o < l.count a) →
      MostFrequent l o → o = a := by
    intro l a o ha hu hm
    refine Classical.byContradiction fun hne => ?_
    have h3 := hu o hne
    have h4 := hm.2 a
    omega
  obtain ⟨a, e1, _, hm1⟩ := likely_eq hw
    (found := nsproxyFound ((syms.get "_raw_spin_lock".toList).getD [])) hd1
  obtain ⟨b, e2, _, hm2⟩ := likely_eq hw (found := pidnsFound) hd2
  have ea := pick ha.1 ha.2 (hm1 (List.ne_nil_of_mem ha.1))
  have eb := pick hb.1 hb.2 (hm2 (List.ne_nil_of_mem hb.1))
  have hset : parseAndSet w a b m =
      (.ok, (m.set nsProxy (BitVec.ofNat 32 x)).set pidNSCommon (BitVec.ofNat 32 y)) := by
    unfold parseAndSet
    rw [ea, eb, trim0x_prefix, trim0x_prefix, parseHex_toDigits (by omega), parseHex_toDigits (by omega)]
    dsimp only
    rw [hc, if_pos rfl, h1, h2, ofInt_natCast, ofInt_natCast, set_name realType_ns (by decide)]
    dsimp only
    rw [set_name realType_pid (by decide)]
  refine ⟨(m.set nsProxy (BitVec.ofNat 32 x)).set pidNSCommon (BitVec.ofNat 32 y), ?_, fun d => ?_⟩
  rotate_left
  · unfold nsproxyOffset pidnsOffset
    rw [GoMap.get_set_other _ _ (by decide), GoMap.get_set, GoMap.get_set]
    simp
  · unfold detect
    rw [ht]
    dsimp only
    rw [hs]
    dsimp only
    rw [e1, e2]
    rw [ea] at hset ⊢
    rw [eb] at hset ⊢
    exact hset

example : let w := someWorld someCode
    ∃ text syms nsCode pidCode, w.kallsyms = some text ∧ parseKernelSyms text = some syms ∧
      Dumped w syms nsProxyProbeSymbols nsCode ∧ Dumped w syms pidNsProbeSymbols pidCode ∧
      nsCode.flatMap (nsproxyFound ((syms.get "_raw_spin_lock".toList).getD [])) =
        List.replicate 7 "0xaf8".toList ∧
      pidCode.flatMap pidnsFound = List.replicate 3 "0x88".toList := by
  refine ⟨_, (parseKernelSyms (someWorld someCode).kallsyms.get!).get (by decide +kernel),
    List.replicate 7 someCode.toList, List.replicate 3 someCode.toList, rfl, ?_, ?_, ?_, ?_, ?_⟩
  · decide +kernel
  · unfold Dumped; decide +kernel
  · unfold Dumped; decide +kernel
  · decide +kernel
  · decide +kernel

/-- C52, but if the code of the kernel has no load where it is expected, detection reports
success and sets nothing: `errors.Wrapf` of no error is no error. This goes for the first search, and
for the second when the first found something. -/
theorem c52_violated {w : World} (hw : AnyOrder w) {text : Str} {syms : GoMap Str Str}
    {nsCode : List Str} (ht : w.kallsyms = some text) (hs : parseKernelSyms text = some syms)
    (hd : Dumped w syms nsProxyProbeSymbols nsCode)
    (hnone : ∀ code ∈ nsCode, ∀ o,
      ¬ LoadAfterLock ((syms.get "_raw_spin_lock".toList).getD []) (scan code) o) (m : Config) :
    detect w m = (.ok, m) := by
  obtain ⟨a, e1, hnil, _⟩ := likely_eq hw
    (found := nsproxyFound ((syms.get "_raw_spin_lock".toList).getD [])) hd
  have : a = [] := hnil (List.flatMap_eq_nil_iff.2 fun code hc => by
    refine List.eq_nil_iff_forall_not_mem.2 fun o ho => ?_
    exact hnone code hc o ((c52_nsproxy_search _ code).1 o ho))
  subst this
  unfold detect
  rw [ht]
  dsimp only
  rw [hs]
  dsimp only
  rw [e1]

example : detect (someWorld "ffffffff81a0: nop\n") [] = (.ok, []) := by decide +kernel

theorem c52_pidns_violated {w : World} (hw : AnyOrder w) {text : Str} {syms : GoMap Str Str}
    {nsCode pidCode : List Str} (ht : w.kallsyms = some text) (hs : parseKernelSyms text = some syms)
    (hd : Dumped w syms nsProxyProbeSymbols nsCode) (hd' : Dumped w syms pidNsProbeSymbols pidCode)
    (hnone : ∀ code ∈ pidCode, ∀ l ∈ scan code, ∀ o, ¬ LeaLoad l o) (m : Config) :
    detect w m = (.ok, m) := by
  obtain ⟨a, e1, _, _⟩ := likely_eq hw
    (found := nsproxyFound ((syms.get "_raw_spin_lock".toList).getD [])) hd
  obtain ⟨b, e2, hnil, _⟩ := likely_eq hw (found := pidnsFound) hd'
  have : b = [] := hnil (List.flatMap_eq_nil_iff.2 fun code hc => by
    refine List.eq_nil_iff_forall_not_mem.2 fun o ho => ?_
    obtain ⟨l, hl, h⟩ := (c52_pidns_search code).1 o ho
    exact hnone code hc l hl o h)
  subst this
  unfold detect
  rw [ht]
  dsimp only
  rw [hs]
  dsimp only
  rw [e1, e2]
  cases a <;> rfl

example : detect (someWorld ("ffffffff81a0: e8 call 0xffffffff81a\n" ++
    "ffffffff81a5: mov    rax,QWORD PTR [rbx+0xaf8]\n")) [] = (.ok, []) := by decide +kernel

/-- Beside C52: the sign of the displacement is lost, so an address below the structure counts for
an offset into it. -/
theorem c52_sign_violated {r1 r2 w : Str} (h1 : r1 ≠ []) (h2 : r2 ≠ []) (h3 : w ≠ [])
    (p1 : ∀ c ∈ r1, wordChar c = true) (p2 : ∀ c ∈ r2, wordChar c = true)
    (p3 : ∀ c ∈ w, wordChar c = true) (post : Str) :
    findLea ("lea ".toList ++ r1 ++ ",[".toList ++ r2 ++ "-0x".toList ++ w ++ (']' :: post)) =
      some ("0x".toList ++ w) := by
  have hat : InstrAt "lea".toList ",[".toList (fun c => c == '+' || c == '-')
      ("lea ".toList ++ r1 ++ ",[".toList ++ r2 ++ "-0x".toList ++ w ++ (']' :: post))
      ("0x".toList ++ w) := by
    refine ⟨[' '], r1, r2, '-', w, post, ?_, by decide, by decide, h1, p1, h2, p2, by decide, h3, p3, rfl⟩
    simp
  have hl := loadAt_complete ⟨',', ['['], by decide, by decide⟩ (fun c hc => by
    rw [Bool.or_eq_true, beq_iff_eq, beq_iff_eq] at hc
    rcases hc with hc | hc <;> subst hc <;> decide) hat
  unfold findLea
  generalize "lea ".toList ++ r1 ++ ",[".toList ++ r2 ++ "-0x".toList ++ w ++ (']' :: post) = s at hl
  cases s <;> rw [load, hl]

example : findLea "lea rax,[rdi-0x10]".toList = some "0x10".toList := by decide +kernel

/-- Beside C52: without the lock in the symbol file every line of code is taken for the lock. -/
theorem c52_no_lock_violated {code l l' o : Str} {before between after : List Str}
    (e : scan code = before ++ l :: (between ++ l' :: after)) (hl : CodeLine l) (hl' : CodeLine l')
    (hm : MovLoad l' o) : ∃ o, nsproxyFound [] code = [o] :=
  (c52_nsproxy_search [] code).2 ⟨o, before, l, between, l', after, e, hl, ⟨[], l, by simp⟩, hl', hm⟩

example : nsproxyFound [] "ffffffff81a0: nop\nffffffff81a1: mov rax,QWORD PTR [rbx+0x8]\n".toList =
    ["0x8".toList] := by decide +kernel

end Swoll.Props.Offsets
