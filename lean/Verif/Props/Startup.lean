import Verif.Lemmas.Startup
import Verif.Props.JobArgs
import Verif.Props.Host
/-
C97: which probe is loaded.
C98: where settings come from.
C99: the self test.
C100: the controller finds the probes.
C101: what cannot be obeyed is refused.
-/
namespace Swoll.Props.Startup
open Swoll Swoll.Startup Swoll.Spec.Startup Swoll.Lemmas.Startup
open Swoll.JobArgs (Str join atoi)

/-! ### C97: the object that is loaded -/

/-- C97 without `top`, empty and missing files (below): the file named by the flag, or else by the
variable, is what is loaded; one that cannot be read ends the program; the built-in object is loaded
when none is named. -/
theorem c97_object_partial {c : Command} (hc : c ≠ .top) (w : Machine) (flag file : Str)
    (hf : FirstGiven [flag, w.env "SWOLL_BPFOBJECT".toList] file) :
    (file = [] → object c w flag = some w.builtin) ∧
    (file ≠ [] → ∀ bs, bs ≠ [] → w.read file = .content bs → object c w flag = some bs) ∧
    (file ≠ [] → w.read file = .failed → object c w flag = none) := by
  have hfile : file = if flag = [] then w.env "SWOLL_BPFOBJECT".toList else flag := by
    rcases hf with ⟨h1, h2⟩ | ⟨h1, ⟨-, h2⟩ | ⟨h2, h3⟩⟩
    · rw [if_neg h1, h2]
    · rw [if_pos h1, h2]
    · rw [if_pos h1, h2]; exact h3
  have hob : object c w flag = if (loadBPFargs w flag).2 then some (loadBPFargs w flag).1 else none := by
    cases c with
    | top => exact absurd rfl hc
    | trace => rfl
    | server => rfl
  rw [hob]
  unfold loadBPFargs
  rw [← hfile]
  refine ⟨fun h => ?_, fun h bs hb hr => ?_, fun h hr => ?_⟩
  · simp [h]
  · simp [h, hr, hb]
  · simp [h, hr]

/-- C97 violated: a named file that does not exist ends the program, although the code means to go on
with the built-in object then ("only error if the error is *NOT* of type file not found"). -/
theorem c97_missing_violated {c : Command} (hc : c ≠ .top) (w : Machine) (flag : Str) (hf : flag ≠ [])
    (hr : w.read flag = .missing) : object c w flag = none := by
  have hob : object c w flag = if (loadBPFargs w flag).2 then some (loadBPFargs w flag).1 else none := by
    cases c with
    | top => exact absurd rfl hc
    | trace => rfl
    | server => rfl
  rw [hob]
  simp [loadBPFargs, hf, hr]

/-- C97 violated: an empty file is replaced by the built-in object without a word. -/
theorem c97_empty_violated {c : Command} (hc : c ≠ .top) (w : Machine) (flag : Str) (hf : flag ≠ [])
    (hr : w.read flag = .content []) : object c w flag = some w.builtin := by
  have hob : object c w flag = if (loadBPFargs w flag).2 then some (loadBPFargs w flag).1 else none := by
    cases c with
    | top => exact absurd rfl hc
    | trace => rfl
    | server => rfl
  rw [hob]
  simp [loadBPFargs, hf, hr]

/-- C97 violated: `top` has the flag too and loads the built-in object whatever it says. -/
theorem c97_top_violated (w : Machine) (flag : Str) : object .top w flag = some w.builtin := rfl

/-- A machine with an object file, an empty one and none. -/
def machine : Machine where
  read f := if f = "a.o".toList then .content [1, 2] else if f = "empty.o".toList then .content []
    else if f = "secret.o".toList then .failed else .missing
  env v := if v = "SWOLL_BPFOBJECT".toList then "a.o".toList else if v = "HOME".toList then "/root".toList else []
  builtin := [9]

example : FirstGiven [[], machine.env "SWOLL_BPFOBJECT".toList] "a.o".toList ∧
    object .trace machine [] = some [1, 2] ∧ object .server machine "secret.o".toList = none ∧
    machine.read "none.o".toList = .missing ∧ object .server machine "none.o".toList = none ∧
    object .trace machine "empty.o".toList = some [9] ∧ object .top machine "a.o".toList = some [9] := by
  refine ⟨Or.inr ⟨rfl, Or.inl ⟨by decide +kernel, by decide +kernel⟩⟩, ?_⟩
  decide +kernel

/-! ### C98: settings -/

/-- C98 without `top`: each setting is that of the flag, or else that of the variable. -/
theorem c98_settings_partial {c : Command} (hc : c ≠ .top) (w : Machine) (s : Settings) :
    FirstGiven [s.cri, w.env "SWOLL_CRISOCKET".toList] (settings c w s).cri ∧
    FirstGiven [s.kubeconfig, w.env "SWOLL_KUBECONFIG".toList] (settings c w s).kubeconfig ∧
    FirstGiven [s.altroot, w.env "SWOLL_ALTROOT".toList] (settings c w s).altroot := by
  have key : ∀ flag var, FirstGiven [flag, w.env var] (orEnv w flag var) := by
    intro flag var
    unfold orEnv
    by_cases h : flag = []
    · rw [if_pos h]
      by_cases h2 : w.env var = []
      · exact Or.inr ⟨h, Or.inr ⟨h2, h2⟩⟩
      · exact Or.inr ⟨h, Or.inl ⟨h2, rfl⟩⟩
    · rw [if_neg h]; exact Or.inl ⟨h, rfl⟩
  have hs : settings c w s = ⟨orEnv w s.cri "SWOLL_CRISOCKET".toList, orEnv w s.kubeconfig "SWOLL_KUBECONFIG".toList,
      orEnv w s.altroot "SWOLL_ALTROOT".toList⟩ := by
    cases c with
    | top => exact absurd rfl hc
    | trace => rfl
    | server => rfl
  rw [hs]
  exact ⟨key _ _, key _ _, key _ _⟩

/-- C98 violated: `top` takes no notice of the variables. -/
theorem c98_top_violated (w : Machine) (s : Settings) : (settings .top w s).cri = s.cri ∧
    (settings .top w s).altroot = s.altroot ∧
    (s.kubeconfig = [] → (settings .top w s).kubeconfig = w.env "HOME".toList ++ "/.kube/config".toList) := by
  refine ⟨rfl, rfl, fun h => ?_⟩
  simp only [settings, h, if_true]

example : (settings .trace ⟨fun _ => .missing, fun v => 'x' :: v, []⟩ ⟨[], "k".toList, []⟩) =
    ⟨"xSWOLL_CRISOCKET".toList, "k".toList, "xSWOLL_ALTROOT".toList⟩ ∧
    (settings .top ⟨fun _ => .missing, fun v => 'x' :: v, []⟩ ⟨[], [], []⟩) = ⟨[], "xHOME/.kube/config".toList, []⟩ := by
  decide +kernel

/-- C98, offsets: with `--no-detect-offsets` those given are set, and nothing is searched for. -/
theorem c98_offsets_partial {c : Command} (hc : c ≠ .top) (ns pid : Str) (detect : Offsets.Config → Bool × Offsets.Config)
    (up : Bool) (m : Offsets.Config) : setOffsets c true ns pid detect up m = Offsets.setArgs up ns pid m := by
  cases c with
  | top => exact absurd rfl hc
  | trace => rfl
  | server => rfl

/-- C98 violated: offsets given without `--no-detect-offsets`, malformed ones too, are ignored; `top`
ignores them always. -/
theorem c98_offsets_violated (c : Command) (nodetect : Bool) (h : c = .top ∨ nodetect = false) (ns pid : Str)
    (detect : Offsets.Config → Bool × Offsets.Config) (up : Bool) (m : Offsets.Config) :
    setOffsets c nodetect ns pid detect up m = detect m := by
  rcases h with rfl | rfl
  · rfl
  · cases c <;> rfl

/-! ### C99: the self test -/

/-- C99, missing: a tracing directory of which nothing can be learnt, extraordinary configuration
files. A machine that passes is fit, after the repair if there was one. -/
theorem c99_passes_partial {fix : Bool} {h : Host} (hstat : h.tracing ≠ .failed ∧ h.mount.2 ≠ .failed)
    (hord : ∀ text, h.config = .text text → Ordinary text) (hp : (runSelfTest fix h).1 = true) :
    Fit (runSelfTest fix h).2 := by
  have feats : ∀ c : Config, (∀ text, c = .text text → Ordinary text) → checkFeatures c = true →
      (∀ text, c = .text text → ∀ f ∈ ["CONFIG_BPF", "CONFIG_BPF_JIT", "CONFIG_FTRACE_SYSCALLS"],
        Enabled text f.toList) ∧ c ≠ .failed := by
    intro c ho hc
    cases c with
    | missing => exact ⟨(fun _ h => by cases h), (fun h => by cases h)⟩
    | failed => cases hc
    | text s =>
      refine ⟨?_, fun h => by cases h⟩
      intro text ht f hf
      injection ht with ht
      subst ht
      simp only [checkFeatures, List.all_eq_true, List.contains_iff_mem] at hc
      have hword : ∀ f ∈ ["CONFIG_BPF", "CONFIG_BPF_JIT", "CONFIG_FTRACE_SYSCALLS"],
          f.toList ∈ checks ∧ f.toList ≠ [] ∧ f.toList.all Offsets.wordChar = true := by decide +kernel
      obtain ⟨h1, h2, h3⟩ := hword f hf
      exact (mem_parse (ho _ rfl) h2 h3).1 (hc _ h1)
  unfold runSelfTest at hp ⊢
  split at hp
  · rename_i hcap
    have hcap' : h.sysAdmin = some true := by simpa [checkCapabilities] using hcap
    rw [if_pos hcap]
    split at hp
    · rename_i hm
      rw [if_pos hm]
      obtain ⟨f1, f2⟩ := feats _ hord hp
      refine ⟨hcap', ?_, f1, f2⟩
      cases ht : h.tracing with
      | found => rfl
      | missing => simp [checkMounts, ht] at hm
      | failed => exact absurd ht hstat.1
    · rename_i hm
      rw [if_neg hm]
      cases fix with
      | false => cases hp
      | true =>
        simp only [if_true] at hp ⊢
        unfold fixMounts at hp ⊢
        by_cases hmt : h.mount.1 = true
        · rw [if_pos hmt] at hp ⊢
          dsimp only at hp ⊢
          split at hp
          · rename_i hm2
            rw [if_pos hm2]
            obtain ⟨f1, f2⟩ := feats _ hord hp
            refine ⟨hcap', ?_, f1, f2⟩
            show h.mount.2 = .found
            cases ht : h.mount.2 with
            | found => rfl
            | missing => simp [checkMounts, ht] at hm2
            | failed => exact absurd ht hstat.2
          · cases hp
        · rw [if_neg hmt] at hp
          cases hp
  · cases hp

/-- C99: a fit machine passes, with or without repair, and is left alone. -/
theorem c99_fit_passes_partial {fix : Bool} {h : Host} (hord : ∀ text, h.config = .text text → Ordinary text)
    (hf : Fit h) : runSelfTest fix h = (true, h) := by
  have h1 : checkCapabilities h = true := by simp [checkCapabilities, hf.admin]
  have h2 : checkMounts h = true := by simp [checkMounts, hf.tracing]
  have h3 : checkFeatures h.config = true := by
    cases hc : h.config with
    | missing => rfl
    | failed => exact absurd hc hf.readable
    | text s =>
      simp only [checkFeatures, List.all_eq_true, List.contains_iff_mem]
      intro f hm
      have hword : ∀ f ∈ checks, f ∈ ["CONFIG_BPF", "CONFIG_BPF_JIT", "CONFIG_FTRACE_SYSCALLS"].map String.toList ∧
        f ≠ [] ∧ f.all Offsets.wordChar = true := by decide +kernel
      obtain ⟨k1, k2, k3⟩ := hword f hm
      obtain ⟨g, hg, rfl⟩ := List.mem_map.1 k1
      exact (mem_parse (hord _ hc) k2 k3).2 (hf.features _ hc g hg)
  unfold runSelfTest
  rw [if_pos h1, if_pos h2, h3]

/-- C99: without CAP_SYS_ADMIN nothing is repaired and the test fails. -/
theorem c99_unprivileged {fix : Bool} {h : Host} (ha : h.sysAdmin ≠ some true) : runSelfTest fix h = (false, h) := by
  have h1 : checkCapabilities h = false := by simpa [checkCapabilities] using ha
  unfold runSelfTest
  rw [h1]; rfl

/-- C99: nothing is changed unless a repair was asked for and the directory is missing; then at most the
directory changes. -/
theorem c99_leaves_alone {fix : Bool} {h : Host} : (runSelfTest fix h).2 ≠ h →
    fix = true ∧ h.tracing = .missing ∧ (runSelfTest fix h).2 = { h with tracing := h.mount.2 } := by
  intro hne
  unfold runSelfTest at hne ⊢
  by_cases h1 : checkCapabilities h = true
  · rw [if_pos h1] at hne ⊢
    by_cases h2 : checkMounts h = true
    · rw [if_pos h2] at hne; exact absurd rfl hne
    · rw [if_neg h2] at hne ⊢
      have ht : h.tracing = .missing := by simpa [checkMounts] using h2
      cases fix with
      | false => exact absurd rfl hne
      | true =>
        simp only [if_true, fixMounts] at hne ⊢
        refine ⟨trivial, ht, ?_⟩
        by_cases hm : h.mount.1 = true
        · rw [if_pos hm] at hne ⊢
          dsimp only at hne ⊢
          split <;> rfl
        · rw [if_neg hm] at hne; exact absurd rfl hne
  · rw [if_neg h1] at hne; exact absurd rfl hne

/-- A configuration as kernels have it. -/
def goodConfig : Str :=
  "CONFIG_BPF=y\nCONFIG_BPF_JIT=y\n# CONFIG_BPF_EVENTS is not set\n\nCONFIG_FTRACE_SYSCALLS=m\n".toList

theorem goodConfig_ordinary : Ordinary goodConfig := by
  refine ⟨by decide +kernel, ?_⟩
  rintro l ⟨-, b, a, h, -⟩
  have h1 := congrArg List.length h
  have h2 : goodConfig.length ≤ 200 := by decide +kernel
  simp only [List.length_append] at h1
  omega

/-- Debugfs is not mounted yet and can be. -/
def goodHost : Host := ⟨some true, .missing, (true, .found), .text goodConfig⟩

example : runSelfTest true goodHost = (true, { goodHost with tracing := .found }) ∧
    runSelfTest false goodHost = (false, goodHost) ∧
    (∀ text, goodHost.config = .text text → Ordinary text) ∧ Fit (runSelfTest true goodHost).2 := by
  have ho : ∀ text, goodHost.config = .text text → Ordinary text := by
    intro text h; injection h with h; rw [← h]; exact goodConfig_ordinary
  refine ⟨?_, ?_, ho, c99_passes_partial (by decide) ho ?_⟩
  all_goals
    have hx : checkFeatures (.text goodConfig) = true := by decide +kernel
    simp [runSelfTest, goodHost, checkCapabilities, checkMounts, fixMounts, hx]

/-- C99 violated: a tracing directory that cannot be looked at passes for one that is mounted. -/
theorem c99_mount_violated : (runSelfTest true ⟨some true, .failed, (true, .found), .missing⟩).1 = true ∧
    ¬ Fit (runSelfTest true ⟨some true, .failed, (true, .found), .missing⟩).2 := by
  refine ⟨by decide, fun h => ?_⟩
  exact absurd h.tracing (by decide)

/-- C99 violated: lines after a long one are not seen; a fit machine fails. -/
theorem c99_long_line_violated (l : Str) (hl : '\n' ∉ l) (hlong : 65535 < l.length) :
    ¬ (runSelfTest true ⟨some true, .found, (true, .found), .text (l ++ '\n' :: goodConfig)⟩).1 = true ∧
    Fit ⟨some true, .found, (true, .found), .text (l ++ '\n' :: goodConfig)⟩ := by
  constructor
  · have hs : Offsets.scan (l ++ '\n' :: goodConfig) = [] := by
      unfold Offsets.scan
      rw [split_at, Lemmas.JobArgs.split_of_not_mem hl]
      have hg : JobArgs.split '\n' goodConfig = ["CONFIG_BPF=y".toList, "CONFIG_BPF_JIT=y".toList,
        "# CONFIG_BPF_EVENTS is not set".toList, [], "CONFIG_FTRACE_SYSCALLS=m".toList, []] := by decide +kernel
      rw [hg]
      simp [Nat.not_le.2 hlong]
    have : checkFeatures (.text (l ++ '\n' :: goodConfig)) = false := by
      simp only [checkFeatures, parseBootConfig, hs]
      decide +kernel
    simp [runSelfTest, checkCapabilities, checkMounts, this]
  · refine ⟨rfl, rfl, ?_, fun h => by cases h⟩
    intro text ht f hf
    injection ht with ht
    subst ht
    have hw : ∀ f ∈ ["CONFIG_BPF", "CONFIG_BPF_JIT", "CONFIG_FTRACE_SYSCALLS"],
        f.toList ∈ parseBootConfig goodConfig ∧ f.toList ≠ [] ∧ f.toList.all Offsets.wordChar = true := by decide +kernel
    obtain ⟨h1, h2, h3⟩ := hw f hf
    have he := (mem_parse goodConfig_ordinary h2 h3).1 h1
    have lift : ∀ x, LineOf goodConfig x → LineOf (l ++ '\n' :: goodConfig) x := by
      intro x hx
      rw [← mem_split] at hx ⊢
      rw [split_at]
      exact List.mem_append_right _ hx
    exact he.imp (lift _) (lift _)

/-- C99 violated: the option for the system call that loads probes, CONFIG_BPF_SYSCALL, is not among those
looked for. A kernel without it passes. -/
theorem c99_bpf_syscall_violated : (runSelfTest true goodHost).1 = true ∧
    ¬ Enabled goodConfig "CONFIG_BPF_SYSCALL".toList := by
  constructor
  · have hx : checkFeatures (.text goodConfig) = true := by decide +kernel
    simp [runSelfTest, goodHost, checkCapabilities, checkMounts, fixMounts, hx]
  · rw [← mem_parse goodConfig_ordinary (by decide +kernel) (by decide +kernel)]
    decide +kernel

/-! ### C100: the endpoints of the controller -/

/-- C100, missing: several nodes, addresses with colons. On a cluster of one node whose address is a
name or an IPv4 address, jobs of a controller without `--endpoints` ask the probe of that node, at
port 9095. -/
theorem c100_one_node_partial {r : JobArgs.Rules} {t : JobArgs.Spec} {a ns jobid : Str} {more : List Str}
    (ha : ':' ∉ a ∧ '"' ∉ a) (hns : ns ≠ [])
    (hhosts : t.hosts = [] ∨ ∃ host, t.hosts = [host] ∧ host ≠ [] ∧ '"' ∉ host)
    (hsc : ∀ sc ∈ t.syscalls, ',' ∉ sc ∧ '"' ∉ sc) (hsc' : t.syscalls ≠ [[]])
    (hl : GoMap.NodupKeys t.labels)
    (hlv : ∀ e ∈ t.labels, JobArgs.validKey r e.1 = true ∧ JobArgs.validValue r e.2 = true)
    (hf : GoMap.NodupKeys t.fields)
    (hfv : ∀ e ∈ t.fields, JobArgs.validKey r e.1 = true ∧ JobArgs.validValue r e.2 = true) :
    ∃ eps req, controllerEndpoints [] [a :: more] = some eps ∧
      JobArgs.clientCreate r (JobArgs.jobArgs eps ns jobid t) = .ok req ∧ req.endpoints = [(a, 9095)] := by
  obtain ⟨req, h1, h2, -⟩ := Props.JobArgs.c72_as_written_partial (r := r) (t := t) (h := a) (p := "9095".toList)
    (ns := ns) (jobid := jobid) (n := 9095) ha.1 ⟨ha.2, by decide +kernel⟩ (by decide +kernel) hns hhosts hsc hsc'
    hl hlv hf hfv
  exact ⟨[a ++ ":9095".toList], req, rfl, h1, h2⟩

theorem nodeEndpoints_first {nodes : List (List Str)} {eps : List Str} (h : nodeEndpoints nodes = some eps) :
    eps.length = nodes.length ∧ ∀ (i : Nat) n, nodes[i]? = some n → ∃ a, n.head? = some a ∧
      eps[i]? = some (a ++ ":9095".toList) := by
  induction nodes generalizing eps with
  | nil => injection h with h; subst h; simp
  | cons n nodes ih =>
    cases n with
    | nil => cases h
    | cons a more =>
      simp only [nodeEndpoints] at h
      obtain ⟨es, h1, h2⟩ := Option.map_eq_some_iff.1 h
      subst h2
      obtain ⟨k1, k2⟩ := ih h1
      refine ⟨by simp [k1], ?_⟩
      intro i n hi
      cases i with
      | zero =>
        rw [List.getElem?_cons_zero] at hi
        injection hi with hi
        subst hi
        exact ⟨a, rfl, rfl⟩
      | succ i =>
        rw [List.getElem?_cons_succ] at hi ⊢
        exact k2 i n hi

/-- C100: what is found is the first address of each node, in order, whatever the number of nodes. -/
theorem c100_each_node {nodes : List (List Str)} (h : ∀ n ∈ nodes, n ≠ []) :
    ∃ eps, controllerEndpoints [] nodes = some eps ∧ eps.length = nodes.length ∧
      ∀ (i : Nat) n, nodes[i]? = some n → ∃ a, n.head? = some a ∧ eps[i]? = some (a ++ ":9095".toList) := by
  have hs : ∃ eps, nodeEndpoints nodes = some eps := by
    induction nodes with
    | nil => exact ⟨[], rfl⟩
    | cons n nodes ih =>
      obtain ⟨eps, he⟩ := ih (fun x hx => h x (List.mem_cons_of_mem _ hx))
      cases n with
      | nil => exact absurd rfl (h [] (by simp))
      | cons a more => exact ⟨_, by rw [nodeEndpoints, he]; rfl⟩
  obtain ⟨eps, he⟩ := hs
  exact ⟨eps, by simp [controllerEndpoints, he], nodeEndpoints_first he⟩

theorem first_colon {s : Str} (h : ':' ∈ s) : ∃ x p, ':' ∉ x ∧ s = x ++ ':' :: p := by
  induction s with
  | nil => cases h
  | cons c s ih =>
    by_cases hc : c = ':'
    · exact ⟨[], s, by simp, by rw [hc]; rfl⟩
    · rcases List.mem_cons.1 h with h | h
      · exact absurd h.symm hc
      · obtain ⟨x, p, h1, h2⟩ := ih h
        refine ⟨c :: x, p, ?_, by rw [h2]; rfl⟩
        intro hm
        rcases List.mem_cons.1 hm with hm | hm
        · exact hc hm.symm
        · exact h1 hm

/-- C100 violated: on any cluster of two or more nodes no job of such a controller creates a trace
anywhere: its client exits over the endpoints. -/
theorem c100_several_nodes_violated {r : JobArgs.Rules} {t : JobArgs.Spec} {ns jobid : Str} {nodes : List (List Str)}
    (h2 : 2 ≤ nodes.length) (hne : ∀ n ∈ nodes, n ≠ []) (hq : ∀ n ∈ nodes, ∀ a ∈ n, '"' ∉ a) :
    ∃ eps, controllerEndpoints [] nodes = some eps ∧
      JobArgs.clientCreate r (JobArgs.jobArgs eps ns jobid t) = .fatal := by
  obtain ⟨eps, h1, hlen, hall⟩ := c100_each_node hne
  refine ⟨eps, h1, ?_⟩
  have hqe : ∀ x ∈ eps, '"' ∉ x := by
    intro x hx
    obtain ⟨i, hi, hxi⟩ := List.getElem_of_mem hx
    obtain ⟨a, ha, hea⟩ := hall i _ (List.getElem?_eq_getElem (by omega))
    rw [List.getElem?_eq_getElem hi, hxi] at hea
    injection hea with hea
    have := hq _ (List.getElem_mem (by omega : i < nodes.length)) a (List.mem_of_mem_head? ha)
    rw [hea]
    intro hm
    rcases List.mem_append.1 hm with hm | hm
    · exact this hm
    · exact absurd hm (by decide +kernel)
  match eps, hlen, hall, hqe with
  | [], hlen, _, _ => simp at hlen; omega
  | [e], hlen, _, _ => simp at hlen; omega
  | e :: e' :: es, hlen, hall, hqe =>
    obtain ⟨a, -, hea⟩ := hall 0 _ (List.getElem?_eq_getElem (by omega))
    rw [List.getElem?_cons_zero] at hea
    injection hea with hea
    obtain ⟨x, p, hx, hxp⟩ := first_colon (s := e) (by rw [hea]; simp)
    rw [hxp] at hqe ⊢
    exact Props.JobArgs.c72_endpoints_violated hx hqe

/-- C100 violated: nor does it on a node with an IPv6 address. -/
theorem c100_ipv6_violated {r : JobArgs.Rules} {t : JobArgs.Spec} {a ns jobid : Str} {more : List Str}
    (ha : ':' ∈ a) (hq : '"' ∉ a) : ∃ eps, controllerEndpoints [] [a :: more] = some eps ∧
      JobArgs.clientCreate r (JobArgs.jobArgs eps ns jobid t) = .fatal := by
  refine ⟨[a ++ ":9095".toList], rfl, ?_⟩
  obtain ⟨x, p, hx, hxp⟩ := first_colon ha
  have hat : ∀ s rest : Str, atoi (s ++ ':' :: rest) = none := by
    intro s rest
    have hb := Lemmas.JobArgs.digits_bad (c := ':') (rest := rest) (hc := by decide)
    have key : ∃ s', (JobArgs.sign (s ++ ':' :: rest)).2 = s' ++ ':' :: rest := by
      cases s with
      | nil => exact ⟨[], rfl⟩
      | cons c s =>
        unfold JobArgs.sign
        dsimp only [List.cons_append]
        split
        · exact ⟨s, rfl⟩
        · split
          · exact ⟨s, rfl⟩
          · exact ⟨c :: s, rfl⟩
    obtain ⟨s', h⟩ := key
    unfold atoi
    rw [h, hb]
    simp
  have hj : join ',' [a ++ ":9095".toList] = x ++ ':' :: (p ++ ':' :: "9095".toList) := by
    show a ++ ":9095".toList = _
    rw [hxp]
    simp
  have hjq : '"' ∉ join ',' [a ++ ":9095".toList] := by
    show '"' ∉ a ++ ":9095".toList
    intro hm
    rcases List.mem_append.1 hm with hm | hm
    · exact hq hm
    · exact absurd hm (by decide +kernel)
  have hep : JobArgs.endpoints [x ++ ':' :: (p ++ ':' :: "9095".toList)] = .fatal := by
    unfold JobArgs.endpoints
    rw [Lemmas.JobArgs.cut_of_not_mem x _ hx]
    dsimp only
    rw [hat]
  unfold JobArgs.clientCreate JobArgs.jobArgs
  dsimp only
  rw [Lemmas.JobArgs.getStringSlice_quoted hjq, hj, if_neg (by simp)]
  split
  · next e1 e2 e3 =>
    injection e1 with e1
    rw [← e1, hep]
  · rfl

/-- C100 violated: a node that has no address yet ends the controller. -/
theorem c100_no_address_violated {nodes : List (List Str)} (h : [] ∈ nodes) : controllerEndpoints [] nodes = none := by
  show nodeEndpoints nodes = none
  induction nodes with
  | nil => cases h
  | cons n nodes ih =>
    cases n with
    | nil => rfl
    | cons a more =>
      rcases List.mem_cons.1 h with h | h
      · cases h
      · rw [nodeEndpoints, ih h]; rfl

example : controllerEndpoints [] [["10.0.0.1".toList, "node1".toList], ["10.0.0.2".toList]] =
    some ["10.0.0.1:9095".toList, "10.0.0.2:9095".toList] := by decide +kernel

/-! ### C101: what cannot be obeyed -/

/-- C101: a log level that is none of the seven ends the program at once. -/
theorem c101_log_level_partial (s : Str) :
    logLevel s = true ↔ s ∈ ["panic", "fatal", "error", "warn", "info", "debug", "trace"].map String.toList := by
  simp only [logLevel, Bool.or_eq_true, beq_iff_eq, List.map_cons, List.map_nil, List.mem_cons, List.not_mem_nil,
    or_false]
  constructor
  · rintro ((((((h | h) | h) | h) | h) | h) | h) <;> simp [h]
  · rintro (h | h | h | h | h | h | h) <;> simp [h]

open Swoll.Host (Op Format)
open Swoll.Event (TraceEvent)

/-- C101 violated: with an `--output` that is neither `cli` nor `json` the trace starts, reads every
event, and prints nothing at all. -/
theorem c101_output_violated {tbl : Syscalls.Syscalls} {refused : String → Filter.Faults} {given : List String}
    {json : TraceEvent Topology.Container → List Char} (o : String) (ho : o ≠ "cli" ∧ o ≠ "json") {h0 h : Host.Host}
    (hs : Host.start tbl refused given = some h0) {hist : List Op}
    (hr : Host.run tbl (Host.formatOf o) json h0 hist = some h) : ∀ line ∈ h.out, line = [] := by
  have hfo : Host.formatOf o = .other := by
    unfold Host.formatOf
    rw [if_neg ho.1, if_neg ho.2]
  rw [hfo] at hr
  intro line hl
  obtain ⟨i, hi, hli⟩ := List.getElem_of_mem hl
  obtain ⟨l, done, -, -, -, -, h5, h6⟩ := (Lemmas.Host.inv_run hs hist hr).samples
  obtain ⟨env, -, hp⟩ := h6 i _ line (List.getElem?_eq_getElem (by omega)) (by rw [List.getElem?_eq_getElem hi, hli])
  unfold Host.print at hp
  split at hp
  · injection hp with hp; exact hp.symm
  · cases hp

example : ((Host.start Host.writeTbl (fun _ => {}) ["write"]).bind (fun h0 =>
    Host.run Host.writeTbl (Host.formatOf "yaml") (fun _ => []) h0 Host.story)).map (fun h => h.out) = some [[]] := by
  decide +kernel

end Swoll.Props.Startup
