import Std.Data.String.ToNat
import Verif.Lemmas.Views
import Verif.Props.Probe
import Verif.Props.Flags
import Verif.Props.Syscalls
/-
C57-C61 and C73: what is made of the kernel metrics.
-/
namespace Swoll.Props.Views
open Swoll Swoll.Syscalls Swoll.Probe Swoll.Views Swoll.Spec.Views Swoll.Lemmas.Views
open Swoll.Topology (Cache Container)

/-! ### C57 -/

/-- C57: after any pushes a window of capacity `n` holds `n` samples: the last `n` of the initial
zeros followed by everything pushed. -/
theorem c57_window (n : Nat) (vs : List Int) :
    (vs.foldl Window.push (newWindow n)).values = (List.replicate n 0 ++ vs).drop vs.length ∧
      (vs.foldl Window.push (newWindow n)).values.length = n := by
  have h : (vs.foldl Window.push (newWindow n)).values = (List.replicate n 0 ++ vs).drop vs.length ∧
      (vs.foldl Window.push (newWindow n)).elems = n := by
    induction vs using snoc_ind with
    | h0 => simp [newWindow]
    | h1 vs v ih =>
      rw [List.foldl_append, List.foldl_cons, List.foldl_nil]
      generalize vs.foldl Window.push (newWindow n) = w at ih
      refine ⟨?_, ih.2⟩
      show (if w.elems < (w.values ++ [v]).length then (w.values ++ [v]).drop 1 else w.values ++ [v]) = _
      rw [ih.1, ih.2, if_pos (by simp), ← List.append_assoc, List.length_append,
        List.length_singleton, ← List.drop_append_of_le_length (by simp), List.drop_drop]
  refine ⟨h.1, ?_⟩
  rw [h.1]
  simp

/-- C57: once the window is full it holds the most recent samples, in order. -/
theorem c57_recent (n : Nat) (old new : List Int) (h : new.length = n) :
    ((old ++ new).foldl Window.push (newWindow n)).values = new := by
  rw [(c57_window n (old ++ new)).1, ← List.append_assoc]
  exact List.drop_left' (by simp; omega)

example : ([1, 2, 3].foldl Window.push (newWindow 2)).values = [2, 3] := c57_recent 2 [1] [2, 3] rfl

/-! ### C58 -/

/-- C58: merging yields exactly one row for each distinct selection of keys among the rows
counted, in whatever order Go goes through them. -/
theorem c58_rows (erronly : Bool) (keys : List String) (m : Agg) :
    GoMap.NodupKeys (merge erronly keys m) ∧
    ∀ k, k ∈ GoMap.keys (merge erronly keys m) ↔ ∃ e ∈ counted erronly m, project keys e.1 = k := by
  rw [merge_eq]
  refine ⟨nodup_rows keys _ _ GoMap.nodupKeys_nil, fun k => ?_⟩
  rw [GoMap.mem_keys_iff]
  have := get_rows keys (counted erronly m) k
  cases hg : GoMap.get ((counted erronly m).foldl (addRow keys) []) k with
  | none =>
    rw [hg] at this
    simp only [Option.isSome_none, Bool.false_eq_true, false_iff]
    rintro ⟨e, he, h⟩
    exact this e he h
  | some v => rw [hg] at this; simpa using this.1

/-- C58: each row of the result is the sum of the rows it stands for (counts a float64 holds
exactly). -/
theorem c58_values (erronly : Bool) (keys : List String) (m : Agg)
    (hm : ((counted erronly m).map (·.2.count.natAbs)).sum ≤ 2 ^ 53) (k : AKey) (v : AVal)
    (h : GoMap.get (merge erronly keys m) k = some v) :
    v.count = (((counted erronly m).filter fun e => project keys e.1 = k).map (·.2.count)).sum ∧
    v.marked = v.count := by
  rw [merge_eq] at h
  have := get_rows keys (counted erronly m) k
  rw [h] at this
  exact ⟨this.2.2 hm, this.2.1.trans (this.2.2 hm).symm⟩

/-- C58: the total is preserved. -/
theorem c58_total (erronly : Bool) (keys : List String) (m : Agg)
    (hm : ((counted erronly m).map (·.2.count.natAbs)).sum ≤ 2 ^ 53) :
    sumCounts (merge erronly keys m) = sumCounts (counted erronly m) := by
  rw [merge_eq]
  exact sumCounts_rows keys _ hm

/-- Three rows, two of them of one pod. -/
def demoAgg : Agg :=
  [({ pod := "a", sc := "sys_read", err := "OK" }, ⟨5, 5⟩), ({ pod := "a", sc := "sys_open", err := "ENOENT" }, ⟨2, 2⟩),
   ({ pod := "b", sc := "sys_read", err := "EINTR" }, ⟨1, 1⟩)]

example : ((counted false demoAgg).map (·.2.count.natAbs)).sum ≤ 2 ^ 53 ∧
    GoMap.get (merge false ["pod"] demoAgg) { pod := "a" } = some ⟨7, 7⟩ ∧
    GoMap.get (merge true ["pod"] demoAgg) { pod := "a" } = some ⟨2, 2⟩ := by decide +kernel

/-! ### C59 -/

/-- A small table of syscalls. -/
def demoTbl : Syscalls :=
  ⟨[(0, ⟨0, "sys_read", "FileSystem", "ReadWrite"⟩), (2, ⟨2, "sys_open", "FileSystem", "Files"⟩)], []⟩

def demoC (pod : String) (ns : Int) : Container := ⟨"i", pod, "s", "c", "img", "default", none, 1, ns⟩
def demoCache : Cache := [(7, demoC "a" 7), (8, demoC "b" 8)]
def demoM (ns nr : BitVec 32) (err : BitVec 16) (count : BitVec 64) : Metric := (⟨ns, nr, err⟩, ⟨count, 3, 0, 0, 0⟩)
def demoMs : List Metric := [demoM 7 0 0 5, demoM 8 0 4 2, demoM 7 2 2 3, demoM 9 0 0 100]

/-- C59: the order of the levels is what the query asks for, word by word; words that mean
nothing are left out. -/
theorem c59_order (toks : List (List Char)) (h : ∀ t ∈ toks, ',' ∉ t) (hne : toks ≠ []) :
    parseOrder (toks.intersperse [',']).flatten =
      toks.filterMap fun t => GoMap.get levelWords (String.ofList t) := by
  have hw : (fun t => GoMap.get levelWords (String.ofList t)) = ordOf := by
    funext t
    exact (ordOf_eq t).symm
  rw [hw]
  unfold parseOrder
  have hs : ∀ t : List Char, ',' ∉ t → JobArgs.split ',' t = [t] := by
    intro t
    induction t with
    | nil => intro _; rfl
    | cons c t ih =>
      intro h
      rw [List.mem_cons, not_or] at h
      rw [JobArgs.split, if_neg (fun e => h.1 e.symm), ih h.2]
  have ha : ∀ t r : List Char, ',' ∉ t → JobArgs.split ',' (t ++ ',' :: r) = t :: JobArgs.split ',' r := by
    intro t r
    induction t with
    | nil => intro _; simp [JobArgs.split]
    | cons c t ih =>
      intro h
      rw [List.mem_cons, not_or] at h
      rw [List.cons_append, JobArgs.split, if_neg (fun e => h.1 e.symm), ih h.2]
  congr 1
  induction toks with
  | nil => exact absurd rfl hne
  | cons t toks ih =>
    cases toks with
    | nil => simpa using hs t (h t (by simp))
    | cons u us =>
      have h2 := ih (fun x hx => h x (List.mem_cons_of_mem _ hx)) (by simp)
      rw [List.intersperse_cons_cons, List.flatten_cons, List.flatten_cons]
      show JobArgs.split ',' (t ++ ',' :: ((u :: us).intersperse [',']).flatten) = _
      rw [ha t _ (h t (by simp)), h2]

example : parseOrder "ns,pod,bogus,sc".toList = [.ns, .pod, .name] := by decide +kernel

/-- C59: the chart is drawn when every syscall is in the tables, or no level is about
syscalls.  Then there is one link for each pair of names some metric goes between, and one node
for each name. -/
theorem c59_links_partial (tbl : Syscalls) (cache : Cache) (ns : String) (ord : List Char) (ms : List Metric)
    (hk : ∀ x ∈ resolved cache ns ms, Known tbl x.2 ∨ ∀ o ∈ orderFor ns ord, aboutSyscall o = false) :
    ∃ ch, sankey tbl cache ns ord ms = some ch ∧
      (ch.links.map fun l => (l.src, l.dst)).Nodup ∧ ch.nodes.Nodup ∧
      (∀ p, p ∈ ch.links.map (fun l => (l.src, l.dst)) ↔
        ∃ x ∈ resolved cache ns ms, p ∈ flows tbl (orderFor ns ord) x) ∧
      (∀ n, n ∈ ch.nodes ↔ ∃ x ∈ resolved cache ns ms, ∃ p ∈ flows tbl (orderFor ns ord) x, n = p.1 ∨ n = p.2) := by
  refine ⟨_, sankey_fold tbl cache ns _ ms {} hk, ?_⟩
  have h1 := ends_addTrips (allTrips tbl (orderFor ns ord) (resolved cache ns ms))
  have h2 := nodes_addTrips (allTrips tbl (orderFor ns ord) (resolved cache ns ms))
  have hmem : ∀ t, t ∈ allTrips tbl (orderFor ns ord) (resolved cache ns ms) ↔
      ∃ x ∈ resolved cache ns ms, t.1 ∈ flows tbl (orderFor ns ord) x ∧ t.2 = x.2.2.count.toNat := by
    intro t
    unfold allTrips tripsOf
    rw [List.mem_flatMap]
    constructor
    · rintro ⟨x, hx, ht⟩
      obtain ⟨p, hp, rfl⟩ := List.mem_map.1 ht
      exact ⟨x, hx, hp, rfl⟩
    · rintro ⟨x, hx, hp, hc⟩
      exact ⟨x, hx, List.mem_map.2 ⟨t.1, hp, by rw [← hc]⟩⟩
  refine ⟨h1.1, h2.1, fun p => ?_, fun n => ?_⟩
  · rw [show (fun l : Link => (l.src, l.dst)) = ends from rfl, h1.2, List.mem_map]
    constructor
    · rintro ⟨t, ht, rfl⟩
      obtain ⟨x, hx, hp, _⟩ := (hmem t).1 ht
      exact ⟨x, hx, hp⟩
    · rintro ⟨x, hx, hp⟩
      exact ⟨(p, x.2.2.count.toNat), (hmem _).2 ⟨x, hx, hp, rfl⟩, rfl⟩
  · rw [h2.2]
    constructor
    · rintro ⟨t, ht, h⟩
      obtain ⟨x, hx, hp, _⟩ := (hmem t).1 ht
      exact ⟨x, hx, t.1, hp, h⟩
    · rintro ⟨x, hx, p, hp, h⟩
      exact ⟨(p, x.2.2.count.toNat), (hmem _).2 ⟨x, hx, hp, rfl⟩, h⟩

/-- C59: the weight on a link is the sum of the counts of the metrics that go along it, as long
as that is at most 2^24. -/
theorem c59_weight_partial (tbl : Syscalls) (cache : Cache) (ns : String) (ord : List Char) (ms : List Metric)
    (ch : Chart)
    (hk : ∀ x ∈ resolved cache ns ms, Known tbl x.2 ∨ ∀ o ∈ orderFor ns ord, aboutSyscall o = false)
    (h : sankey tbl cache ns ord ms = some ch) (l : Link) (hl : l ∈ ch.links)
    (hw : weight tbl (orderFor ns ord) (resolved cache ns ms) l.src l.dst ≤ 2 ^ 24) :
    l.value = weight tbl (orderFor ns ord) (resolved cache ns ms) l.src l.dst := by
  have he := sankey_fold tbl cache ns (orderFor ns ord) ms {} hk
  obtain rfl : _ = ch := Option.some.inj (he.symm.trans h)
  have hn := (ends_addTrips (allTrips tbl (orderFor ns ord) (resolved cache ns ms))).1
  have hv := value_addTrips l.src l.dst (allTrips tbl (orderFor ns ord) (resolved cache ns ms))
    (by rw [tripWeight_all]; exact hw)
  rw [tripWeight_all] at hv
  rw [← hv]
  generalize (addTrips {} (allTrips tbl (orderFor ns ord) (resolved cache ns ms))).links = ls at *
  clear hv he h hk hw
  induction ls with
  | nil => cases hl
  | cons a ls ih =>
    rw [linkValue_cons]
    rw [List.map_cons, List.nodup_cons] at hn
    rcases List.mem_cons.1 hl with hl | hl
    · subst hl; simp
    · rw [if_neg]
      · exact ih hl hn.2
      · rintro ⟨h1, h2⟩
        exact hn.1 (List.mem_map.2 ⟨l, hl, by unfold ends; rw [h1, h2]⟩)

/-- C59: as long as no link carries more than 2^24, each metric is counted once between any two
levels: all links together carry the total once for every step from a level to the next. -/
theorem c59_conserved_partial (tbl : Syscalls) (cache : Cache) (ns : String) (ord : List Char) (ms : List Metric)
    (ch : Chart)
    (hk : ∀ x ∈ resolved cache ns ms, Known tbl x.2 ∨ ∀ o ∈ orderFor ns ord, aboutSyscall o = false)
    (h : sankey tbl cache ns ord ms = some ch)
    (hw : ∀ s d, weight tbl (orderFor ns ord) (resolved cache ns ms) s d ≤ 2 ^ 24) :
    (ch.links.map (·.value)).sum = ((orderFor ns ord).length - 1) * total (resolved cache ns ms) := by
  have he := sankey_fold tbl cache ns (orderFor ns ord) ms {} hk
  obtain rfl : _ = ch := Option.some.inj (he.symm.trans h)
  have hs := sum_addTrips (fun _ _ => true) (allTrips tbl (orderFor ns ord) (resolved cache ns ms))
    (by intro s d; rw [tripWeight_all]; exact hw s d)
  rw [tripSum_all] at hs
  unfold sumLinks at hs
  rw [List.filter_eq_self.2 (fun _ _ => rfl)] at hs
  rw [hs]
  generalize resolved cache ns ms = xs
  induction xs with
  | nil => simp [total]
  | cons x xs ih =>
    have ht : total (x :: xs) = x.2.2.count.toNat + total xs := by simp [total]
    rw [List.map_cons, List.sum_cons, ih, ht, Nat.mul_add]
    congr 1
    congr 1
    rw [← length_flows tbl (orderFor ns ord) x, List.countP_eq_length]
    simp

/-- C59: as long as no link carries more than 2^24, and no pair of names is met at two levels,
the links between a level and the next carry exactly the total of the metrics. -/
theorem c59_level_partial (tbl : Syscalls) (cache : Cache) (ns : String) (ord : List Char) (ms : List Metric)
    (ch : Chart)
    (hk : ∀ x ∈ resolved cache ns ms, Known tbl x.2 ∨ ∀ o ∈ orderFor ns ord, aboutSyscall o = false)
    (h : sankey tbl cache ns ord ms = some ch)
    (hw : ∀ s d, weight tbl (orderFor ns ord) (resolved cache ns ms) s d ≤ 2 ^ 24)
    (i : Nat) (hi : i + 1 < (orderFor ns ord).length)
    (hu : ∀ x ∈ resolved cache ns ms, ∀ y ∈ resolved cache ns ms, ∀ (j : Nat) (p : String × String),
      (flows tbl (orderFor ns ord) x)[i]? = some p → (flows tbl (orderFor ns ord) y)[j]? = some p → i = j) :
    ((ch.links.filter fun l => ((resolved cache ns ms).map fun x => (flows tbl (orderFor ns ord) x)[i]?).contains
      (some (l.src, l.dst))).map (·.value)).sum = total (resolved cache ns ms) := by
  have he := sankey_fold tbl cache ns (orderFor ns ord) ms {} hk
  obtain rfl : _ = ch := Option.some.inj (he.symm.trans h)
  have hs := sum_addTrips (fun s d => ((resolved cache ns ms).map fun x =>
      (flows tbl (orderFor ns ord) x)[i]?).contains (some (s, d)))
    (allTrips tbl (orderFor ns ord) (resolved cache ns ms))
    (by intro s d; rw [tripWeight_all]; exact hw s d)
  rw [tripSum_all] at hs
  unfold sumLinks at hs
  rw [hs]
  unfold total
  congr 1
  apply List.map_congr_left
  intro x hx
  have hlen := length_flows tbl (orderFor ns ord) x
  rw [show x.2.2.count.toNat = 1 * x.2.2.count.toNat by omega]
  congr 1
  · -- exactly the flow at place `i` is picked
    have hp : ∀ (j : Nat) (p : String × String), (flows tbl (orderFor ns ord) x)[j]? = some p →
        (((resolved cache ns ms).map fun x => (flows tbl (orderFor ns ord) x)[i]?).contains (some (p.1, p.2)) = true
          ↔ i = j) := by
      intro j p hj
      rw [List.contains_iff_mem, List.mem_map]
      constructor
      · rintro ⟨y, hy, hyp⟩
        exact hu y hy x hx j p hyp hj
      · rintro rfl
        exact ⟨x, hx, hj⟩
    have hil : i < (flows tbl (orderFor ns ord) x).length := by omega
    generalize flows tbl (orderFor ns ord) x = fs at hp hil
    generalize hq : (fun q : String × String => ((resolved cache ns ms).map fun x =>
      (flows tbl (orderFor ns ord) x)[i]?).contains (some (q.1, q.2))) = q at *
    have hp' : ∀ (j : Nat) (p : String × String), fs[j]? = some p → (q p = true ↔ i = j) := by
      intro j p hj; rw [← hq]; exact hp j p hj
    clear hp hq hu hs hw h he hk hlen hx
    induction fs generalizing i with
    | nil => simp at hil
    | cons f fs ih =>
      cases i with
      | zero =>
        have h0 := (hp' 0 f rfl).2 rfl
        rw [List.countP_cons_of_pos h0]
        have : fs.countP q = 0 := by
          rw [List.countP_eq_zero]
          intro a ha hqa
          obtain ⟨j, hj⟩ := List.getElem?_of_mem ha
          have := (hp' (j + 1) a (by simpa using hj)).1 hqa
          omega
        omega
      | succ i =>
        have h0 : ¬ q f = true := fun hh => by have := (hp' 0 f rfl).1 hh; omega
        rw [List.countP_cons_of_neg h0]
        refine ih i (by omega) (by simpa using hil) ?_
        intro j p hj
        have := hp' (j + 1) p (by simpa using hj)
        rw [this]; omega
  · omega

example : resolved demoCache "" demoMs ≠ [] ∧ (∀ x ∈ resolved demoCache "" demoMs, Known demoTbl x.2) ∧
    total (resolved demoCache "" demoMs) = 10 ∧
    ∃ ch, sankey demoTbl demoCache "" "ns,pod,sc".toList demoMs = some ch ∧
      ch.links = [⟨"default", "a", 8⟩, ⟨"a", "sys_read", 5⟩, ⟨"default", "b", 2⟩, ⟨"b", "sys_read", 2⟩, ⟨"a", "sys_open", 3⟩] :=
  ⟨by decide +kernel, by decide +kernel, by decide +kernel, _, rfl, by decide +kernel⟩

/-- C59 violated (1), for all charts with a level about syscalls, the two default ones among
them: one metric of a container of the namespace with a syscall that is not in the tables, and
there is no chart: the request panics. -/
theorem c59_crash_violated (tbl : Syscalls) (cache : Cache) (ns : String) (ord : List Char) (ms : List Metric)
    (hl : 2 ≤ (orderFor ns ord).length) (ho : ∃ o ∈ orderFor ns ord, aboutSyscall o = true)
    (x : Container × Metric) (hx : x ∈ resolved cache ns ms) (hk : ¬ Known tbl x.2) :
    sankey tbl cache ns ord ms = none :=
  sankey_crash tbl cache ns _ hl ho ms {} x hx hk

example (ns : String) : 2 ≤ (orderFor ns []).length ∧ ∃ o ∈ orderFor ns [], aboutSyscall o = true := by
  unfold orderFor
  by_cases h : ns = "" <;> simp [h, aboutSyscall]

/-- C59 violated (2): a link that carries 2^24 does not grow by single calls: sixteen million
reads and a thousand pods with one read each show as sixteen million. -/
theorem c59_float_violated (n : Nat) :
    let ms := demoM 7 0 0 16777216 :: List.replicate n (demoM 8 0 0 1)
    (sankey demoTbl demoCache "" "ns,sc".toList ms).map (fun ch => ch.links.map (·.value)) = some [16777216] ∧
    total (resolved demoCache "" ms) = 16777216 + n := by
  dsimp only
  have hone : ∀ ch, sankeyOne demoTbl demoCache "" [.ns, .name] ch (demoM 8 0 0 1) =
      some (addLink ch "default" "sys_read" 1) := fun ch => rfl
  have hfix : bumpLink [⟨"default", "sys_read", 16777216⟩] "default" "sys_read" 1 =
      [⟨"default", "sys_read", 16777216⟩] := by decide +kernel
  constructor
  · have hord : orderFor "" "ns,sc".toList = [.ns, .name] := by decide +kernel
    unfold sankey
    rw [hord, List.foldlM_cons]
    have h0 : sankeyOne demoTbl demoCache "" [.ns, .name] {} (demoM 7 0 0 16777216) =
        some ⟨["default", "sys_read"], [⟨"default", "sys_read", 16777216⟩]⟩ := by decide +kernel
    rw [h0]
    simp only [Option.bind_eq_bind, Option.bind_some]
    have hall : ∀ n (nodes : List String), ∃ nodes', (List.replicate n (demoM 8 0 0 1)).foldlM
        (sankeyOne demoTbl demoCache "" [.ns, .name]) ⟨nodes, [⟨"default", "sys_read", 16777216⟩]⟩ =
        some ⟨nodes', [⟨"default", "sys_read", 16777216⟩]⟩ := by
      intro n
      induction n with
      | zero => intro nodes; exact ⟨nodes, rfl⟩
      | succ n ih =>
        intro nodes
        rw [List.replicate_succ, List.foldlM_cons, hone]
        simp only [Option.bind_eq_bind, Option.bind_some, addLink, hfix]
        exact ih _
    obtain ⟨nodes', hn⟩ := hall n ["default", "sys_read"]
    rw [hn]; rfl
  · have hr : ∀ n, total (resolved demoCache "" (List.replicate n (demoM 8 0 0 1))) = n := by
      intro n
      induction n with
      | zero => rfl
      | succ n ih =>
        rw [List.replicate_succ, resolved_cons]
        have : GoMap.get demoCache ((demoM 8 0 0 1).1.pidNs.toNat : Int) = some (demoC "b" 8) := by decide +kernel
        rw [this]
        simp only [true_or, if_true]
        have ht : ∀ x xs, total (x :: xs) = x.2.2.count.toNat + total xs := by intro x xs; simp [total]
        rw [ht, ih]
        show 1 + n = n + 1
        omega
    rw [resolved_cons]
    have : GoMap.get demoCache ((demoM 7 0 0 16777216).1.pidNs.toNat : Int) = some (demoC "a" 7) := by decide +kernel
    rw [this]
    simp only [true_or, if_true]
    have ht : ∀ x xs, total (x :: xs) = x.2.2.count.toNat + total xs := by intro x xs; simp [total]
    rw [ht, hr]; rfl

/-! ### C60 -/

/-- The clouds after some requests. -/
def cloudsAfter (tbl : Syscalls) (rs : List Req) : Clouds := rs.foldl (serve tbl) {}

/-- C60 in general: a page shows for each word the sum of what it stood for at *every* load of
the index page so far. -/
theorem c60_accumulates (tbl : Syscalls) (rs : List Req) (w : String) :
    shows (cloudsAfter tbl rs).errno w =
      BitVec.ofNat 64 (((rs.filter (·.index)).map fun r => wordCount errnoWord r.ms w).sum) ∧
    shows (cloudsAfter tbl rs).ns w =
      BitVec.ofNat 64 (((rs.filter (·.index)).map fun r => wordCount (nsWord r.cache) r.ms w).sum) ∧
    shows (cloudsAfter tbl rs).cls w =
      BitVec.ofNat 64 (((rs.filter (·.index)).map fun r => wordCount (clsWord tbl) r.ms w).sum) := by
  unfold cloudsAfter
  induction rs using snoc_ind with
  | h0 => exact ⟨rfl, rfl, rfl⟩
  | h1 rs r ih =>
    rw [List.foldl_append, List.foldl_cons, List.foldl_nil]
    generalize rs.foldl (serve tbl) {} = cl at ih
    unfold serve
    by_cases hi : r.index = true
    · rw [if_pos hi, List.filter_append, List.filter_cons_of_pos hi, List.filter_nil]
      simp only [List.map_append, List.map_cons, List.map_nil, List.sum_append, List.sum_cons, List.sum_nil,
        Nat.add_zero, BitVec.ofNat_add]
      unfold Views.updateMetrics
      rw [shows_fold (shows_errno tbl r.cache), shows_fold (shows_ns tbl r.cache),
        shows_fold (shows_cls tbl r.cache), ih.1, ih.2.1, ih.2.2]
      exact ⟨rfl, rfl, rfl⟩
    · rw [if_neg hi, List.filter_append, List.filter_cons_of_neg hi, List.filter_nil, List.append_nil]
      exact ih

/-- C60: the first load of the index page shows the current counts. -/
theorem c60_first_partial (tbl : Syscalls) (pre : List Req) (r : Req) (hr : r.index = true)
    (hpre : ∀ q ∈ pre, q.index = false) (w : String) :
    shows (cloudsAfter tbl (pre ++ [r])).errno w = BitVec.ofNat 64 (wordCount errnoWord r.ms w) ∧
    shows (cloudsAfter tbl (pre ++ [r])).ns w = BitVec.ofNat 64 (wordCount (nsWord r.cache) r.ms w) ∧
    shows (cloudsAfter tbl (pre ++ [r])).cls w = BitVec.ofNat 64 (wordCount (clsWord tbl) r.ms w) := by
  have h := c60_accumulates tbl (pre ++ [r]) w
  have hf : (pre ++ [r]).filter (·.index) = [r] := by
    rw [List.filter_append, List.filter_cons_of_pos hr, List.filter_nil,
      List.filter_eq_nil_iff.2 (fun q hq => by rw [hpre q hq]; decide)]
    rfl
  rw [hf] at h
  simpa using h

example : (⟨true, demoMs, demoCache⟩ : Req).index = true ∧ shows (cloudsAfter demoTbl [⟨true, demoMs, demoCache⟩]).errno "EINTR" = 2 ∧
    shows (cloudsAfter demoTbl [⟨true, demoMs, demoCache⟩]).ns "default" = 10 ∧
    shows (cloudsAfter demoTbl [⟨true, demoMs, demoCache⟩]).cls "FileSystem" = 110 := by decide +kernel

/-- C60 violated (1), for all metrics: loading the index again with nothing changed shows every
word with twice its count. -/
theorem c60_reload_violated (tbl : Syscalls) (ms : List Metric) (cache : Cache) (w : String)
    (h : BitVec.ofNat 64 (wordCount errnoWord ms w) ≠ 0) :
    shows (cloudsAfter tbl [⟨true, ms, cache⟩, ⟨true, ms, cache⟩]).errno w =
      BitVec.ofNat 64 (2 * wordCount errnoWord ms w) ∧
    shows (cloudsAfter tbl [⟨true, ms, cache⟩, ⟨true, ms, cache⟩]).errno w ≠ BitVec.ofNat 64 (wordCount errnoWord ms w) := by
  have h1 := (c60_accumulates tbl [⟨true, ms, cache⟩, ⟨true, ms, cache⟩] w).1
  have h2 : shows (cloudsAfter tbl [⟨true, ms, cache⟩, ⟨true, ms, cache⟩]).errno w =
      BitVec.ofNat 64 (wordCount errnoWord ms w + wordCount errnoWord ms w) := by
    rw [h1]; simp
  refine ⟨by rw [h2, Nat.two_mul], ?_⟩
  rw [h2, BitVec.ofNat_add]
  intro he
  apply h
  have := congrArg (fun b => b - BitVec.ofNat 64 (wordCount errnoWord ms w)) he
  simpa [BitVec.add_sub_cancel] using this

example : BitVec.ofNat 64 (wordCount errnoWord demoMs "EINTR") ≠ 0 := by decide +kernel

/-- C60 violated (2), for all metrics: the pages of single clouds show what the last load of the
index showed, nothing if there was none. -/
theorem c60_stale_violated (tbl : Syscalls) (rs : List Req) (r : Req) (hr : r.index = false) :
    cloudsAfter tbl (rs ++ [r]) = cloudsAfter tbl rs ∧ cloudsAfter tbl [r] = {} := by
  unfold cloudsAfter
  rw [List.foldl_append]
  simp [serve, hr]

/-! ### C61 -/

theorem f64_close (n : Nat) : Close (f64 n) n := ⟨f64_exact, roundTo_error⟩

/-- What is emitted for a metric of a known container. -/
def emitted (tbl : Syscalls) (x : Container × Metric) : List Sample :=
  match lookup tbl (.int (x.2.1.syscall.toNat : Int)) with
  | none => []
  | some sc => [⟨.count, f64 x.2.2.count.toNat, labels sc x.1 x.2⟩, ⟨.time, f64 x.2.2.time.toNat, labels sc x.1 x.2⟩]

theorem collect_eq (tbl : Syscalls) (cache : Cache) (ms : List Metric) (hk : ∀ x ∈ resolved cache "" ms, Known tbl x.2) :
    collect tbl (some cache) ms = some ((resolved cache "" ms).flatMap (emitted tbl)) := by
  unfold collect
  dsimp only
  have hone : ∀ m, collectOne tbl cache m =
      match GoMap.get cache (m.1.pidNs.toNat : Int) with
      | none => some []
      | some c =>
        match lookup tbl (.int (m.1.syscall.toNat : Int)) with
        | none => none
        | some _ => some (emitted tbl (c, m)) := by
    intro m
    unfold collectOne containerOf Topology.lookupContainer syscallOf emitted
    cases GoMap.get cache (m.1.pidNs.toNat : Int) with
    | none => rfl
    | some c =>
      dsimp only
      cases lookup tbl (.int (m.1.syscall.toNat : Int)) with
      | none => rfl
      | some sc => rfl
  have hsome : ∀ ms, (∀ x ∈ resolved cache "" ms, Known tbl x.2) → ∃ rs, ms.mapM (collectOne tbl cache) = some rs ∧
      rs.flatten = (resolved cache "" ms).flatMap (emitted tbl) := by
    intro ms
    induction ms with
    | nil => intro _; exact ⟨[], rfl, rfl⟩
    | cons m ms ih =>
      intro hk
      rw [resolved_cons] at hk ⊢
      rw [List.mapM_cons, hone]
      cases hg : GoMap.get cache (m.1.pidNs.toNat : Int) with
      | none =>
        simp only [hg] at hk ⊢
        obtain ⟨rs, h1, h2⟩ := ih hk
        exact ⟨[] :: rs, by rw [h1]; rfl, by simpa using h2⟩
      | some c =>
        simp only [hg, true_or, if_true] at hk ⊢
        obtain ⟨sc, hsc⟩ := hk (c, m) List.mem_cons_self
        obtain ⟨rs, h1, h2⟩ := ih fun x hx => hk x (List.mem_cons_of_mem _ hx)
        refine ⟨emitted tbl (c, m) :: rs, ?_, ?_⟩
        · have hsc' : lookup tbl (.int (m.1.syscall.toNat : Int)) = some sc := hsc
          rw [h1, hsc']; rfl
        · rw [List.flatten_cons, h2, List.flatMap_cons]
  obtain ⟨rs, h1, h2⟩ := hsome ms hk
  rw [h1, Option.map_some, h2]

/-- C61: when all syscalls are in the tables, `Collect` does not crash and emits for each metric
of a known container one sample with its count and one with its time, with the right labels, and
nothing else. -/
theorem c61_samples_partial (tbl : Syscalls) (cache : Cache) (ms : List Metric)
    (hk : ∀ x ∈ resolved cache "" ms, Known tbl x.2) :
    ∃ ss, collect tbl (some cache) ms = some ss ∧ ss.length = 2 * (resolved cache "" ms).length ∧
      (∀ x ∈ resolved cache "" ms, ∀ d, ∃ s ∈ ss, Reports tbl d x s) ∧
      (∀ s ∈ ss, ∃ x ∈ resolved cache "" ms, ∃ d, Reports tbl d x s) := by
  refine ⟨_, collect_eq tbl cache ms hk, ?_, ?_, ?_⟩
  · generalize resolved cache "" ms = xs at *
    induction xs with
    | nil => rfl
    | cons x xs ih =>
      rw [List.flatMap_cons, List.length_append, ih fun y hy => hk y (List.mem_cons_of_mem _ hy)]
      obtain ⟨sc, hsc⟩ := hk x List.mem_cons_self
      simp only [emitted, hsc, List.length_cons, List.length_nil]
      omega
  · intro x hx d
    obtain ⟨sc, hsc⟩ := hk x hx
    cases d with
    | count =>
      refine ⟨⟨.count, f64 x.2.2.count.toNat, labels sc x.1 x.2⟩, List.mem_flatMap.2 ⟨x, hx, ?_⟩, sc, hsc, rfl, rfl, f64_close _⟩
      simp [emitted, hsc]
    | time =>
      refine ⟨⟨.time, f64 x.2.2.time.toNat, labels sc x.1 x.2⟩, List.mem_flatMap.2 ⟨x, hx, ?_⟩, sc, hsc, rfl, rfl, f64_close _⟩
      simp [emitted, hsc]
  · intro s hs
    obtain ⟨x, hx, hs⟩ := List.mem_flatMap.1 hs
    obtain ⟨sc, hsc⟩ := hk x hx
    simp only [emitted, hsc, List.mem_cons, List.not_mem_nil, or_false] at hs
    rcases hs with rfl | rfl
    · exact ⟨x, hx, .count, sc, hsc, rfl, rfl, f64_close _⟩
    · exact ⟨x, hx, .time, sc, hsc, rfl, rfl, f64_close _⟩

example : ∀ x ∈ resolved demoCache "" demoMs, Known demoTbl x.2 := by decide +kernel

/-- C61: without a topology nothing is emitted. -/
theorem c61_no_topology (tbl : Syscalls) (ms : List Metric) : collect tbl none ms = some [] := rfl

/-- Error numbers of Linux, and success. -/
def LinuxErr (m : Metric) : Prop := (m.1.errno.toNat : Int) ∈ 0 :: Spec.Flags.errnos.map (·.1)

instance (m : Metric) : Decidable (LinuxErr m) := inferInstanceAs (Decidable (_ ∈ _))

theorem errno_inj {a b : Int} (ha : a ∈ 0 :: Spec.Flags.errnos.map (·.1)) (hb : b ∈ 0 :: Spec.Flags.errnos.map (·.1))
    (h : Flags.errnoToString a = Flags.errnoToString b) : a = b := by
  have hm : ∀ a : Int, a ∈ 0 :: Spec.Flags.errnos.map (·.1) → ∃ n, (a, n) ∈ (0, "OK") :: Spec.Flags.errnos := by
    intro a ha
    rcases List.mem_cons.1 ha with ha | ha
    · exact ⟨"OK", by rw [ha]; exact List.mem_cons_self⟩
    · obtain ⟨e, he, rfl⟩ := List.mem_map.1 ha
      exact ⟨e.2, List.mem_cons_of_mem _ he⟩
  obtain ⟨n, hn⟩ := hm a ha
  obtain ⟨n', hn'⟩ := hm b hb
  have h1 := Props.Flags.c42_linux_errors (.refl Flags.errnoVals) hn
  have h2 := Props.Flags.c42_linux_errors (.refl Flags.errnoVals) hn'
  dsimp only at h1 h2
  rw [← h1.2, ← h2.2, ← h1.1, ← h2.1, h]

/-- C61: the samples of one collection are different series: no two have the same description
and the same labels (error numbers of Linux; `QueryAll` yields no key twice). -/
theorem c61_distinct_partial (order : List (String × String × String)) (ho : order.Perm gClassMap)
    (tbl : Syscalls) (ht : new order = some tbl) (cache : Cache) (ms : List Metric)
    (hn : (ms.map (·.1)).Nodup) (hk : ∀ x ∈ resolved cache "" ms, Known tbl x.2) (he : ∀ m ∈ ms, LinuxErr m)
    (ss : List Sample) (h : collect tbl (some cache) ms = some ss) :
    (ss.map fun s => (s.desc, s.labels)).Nodup := by
  rw [collect_eq tbl cache ms hk] at h
  obtain rfl := Option.some.inj h
  have hmem : ∀ {ms : List Metric} {x}, x ∈ resolved cache "" ms → x.2 ∈ ms := by
    intro ms x hx
    obtain ⟨m, hm, h2⟩ := List.mem_filterMap.1 hx
    cases hg : GoMap.get cache (m.1.pidNs.toNat : Int) with
    | none => rw [hg] at h2; cases h2
    | some c =>
      rw [hg] at h2
      simp only [Option.bind_some, true_or, if_true, Option.some.injEq] at h2
      rw [← h2]; exact hm
  -- the labels tell the metrics apart
  have hinj : ∀ x ∈ resolved cache "" ms, ∀ y ∈ resolved cache "" ms, ∀ sc sc',
      lookup tbl (.int (x.2.1.syscall.toNat : Int)) = some sc → lookup tbl (.int (y.2.1.syscall.toNat : Int)) = some sc' →
      labels sc x.1 x.2 = labels sc' y.1 y.2 → x.2.1 = y.2.1 := by
    intro x hx y hy sc sc' hsc hsc' hl
    simp only [labels, List.cons.injEq, and_true] at hl
    obtain ⟨hname, -, -, -, -, -, herr, hns⟩ := hl
    have h1 := (Props.Syscalls.c43_lookup_sound order ho tbl ht _ sc hsc)
    have h2 := (Props.Syscalls.c43_lookup_sound order ho tbl ht _ sc' hsc')
    have h3 := (Props.Syscalls.c43_lookup_complete order ho tbl ht _ _ _ _ h1.1).2.2
    have h4 := (Props.Syscalls.c43_lookup_complete order ho tbl ht _ _ _ _ h2.1).2.2
    rw [hname] at h3
    rw [h3] at h4
    have hnr : sc.nr = sc'.nr := by
      injection h4 with h4
      injection h4
    have e1 : x.2.1.syscall = y.2.1.syscall := by
      apply BitVec.eq_of_toNat_eq
      have a1 := h1.2
      have a2 := h2.2
      simp only at a1 a2
      omega
    have e2 : x.2.1.errno = y.2.1.errno := by
      apply BitVec.eq_of_toNat_eq
      have := errno_inj (he _ (hmem hx)) (he _ (hmem hy)) herr
      omega
    have e3 : x.2.1.pidNs = y.2.1.pidNs := BitVec.eq_of_toNat_eq (Nat.repr_injective hns)
    cases hx1 : x.2.1
    cases hy1 : y.2.1
    rw [hx1, hy1] at e1 e2 e3
    simp only at e1 e2 e3
    rw [e1, e2, e3]
  have hxs : ((resolved cache "" ms).map (·.2.1)).Nodup := by
    clear hinj hk h he
    induction ms with
    | nil => exact List.nodup_nil
    | cons m ms ih =>
      rw [List.map_cons, List.nodup_cons] at hn
      rw [resolved_cons]
      cases GoMap.get cache (m.1.pidNs.toNat : Int) with
      | none => exact ih hn.2
      | some c =>
        simp only [true_or, if_true]
        rw [List.map_cons, List.nodup_cons]
        refine ⟨?_, ih hn.2⟩
        intro hm
        obtain ⟨x, hx, hx2⟩ := List.mem_map.1 hm
        exact hn.1 (List.mem_map.2 ⟨x.2, hmem hx, hx2⟩)
  clear hmem he hn
  generalize resolved cache "" ms = xs at *
  induction xs with
  | nil => exact List.nodup_nil
  | cons x xs ih =>
    rw [List.map_cons, List.nodup_cons] at hxs
    rw [List.flatMap_cons, List.map_append, List.nodup_append]
    obtain ⟨sc, hsc⟩ := hk x List.mem_cons_self
    refine ⟨by simp [emitted, hsc], ih (fun y hy => hk y (List.mem_cons_of_mem _ hy)) rfl
      (fun y hy z hz => hinj y (List.mem_cons_of_mem _ hy) z (List.mem_cons_of_mem _ hz)) hxs.2, ?_⟩
    intro a ha b hb e
    obtain ⟨s, hs, rfl⟩ := List.mem_map.1 ha
    obtain ⟨s', hs', rfl⟩ := List.mem_map.1 hb
    obtain ⟨y, hy, hs'⟩ := List.mem_flatMap.1 hs'
    obtain ⟨sc', hsc'⟩ := hk y (List.mem_cons_of_mem _ hy)
    have hl : s.labels = labels sc x.1 x.2 := by
      simp only [emitted, hsc, List.mem_cons, List.not_mem_nil, or_false] at hs
      rcases hs with rfl | rfl <;> rfl
    have hl' : s'.labels = labels sc' y.1 y.2 := by
      simp only [emitted, hsc', List.mem_cons, List.not_mem_nil, or_false] at hs'
      rcases hs' with rfl | rfl <;> rfl
    have hll : labels sc x.1 x.2 = labels sc' y.1 y.2 := by
      rw [← hl, ← hl']; exact (Prod.mk.inj e).2
    have := hinj x List.mem_cons_self y (List.mem_cons_of_mem _ hy) sc sc' hsc hsc' hll
    exact hxs.1 (this ▸ List.mem_map.2 ⟨y, hy, rfl⟩)

example : (demoMs.map (·.1)).Nodup ∧ (∀ m ∈ demoMs, LinuxErr m) := by decide +kernel

/-- C61, from the kernel to the exporter: after any history of syscalls and rules (none about
namespace 0), in whatever order the kernel keeps its map, each stored metric of a known container
is exported with its count and its time. -/
theorem c61_stored_partial (tbl : Syscalls) (hasFiller : BitVec 32 → Bool) (hist : List POp) (hz : Probe.NoNsZero hist)
    (stored : GoMap MKey MVal) (ho : stored.Perm (Probe.after tbl hasFiller hist).metrics) (fuel : Nat)
    (hf : stored.length < fuel) (cache : Cache)
    (hk : ∀ k v, GoMap.get (Probe.after tbl hasFiller hist).metrics k = some v →
      GoMap.get cache (k.pidNs.toNat : Int) ≠ none → Known tbl (k, v)) :
    ∃ ms ss, queryAll stored fuel = some ms ∧ collect tbl (some cache) ms = some ss ∧
      ∀ k v c, GoMap.get (Probe.after tbl hasFiller hist).metrics k = some v →
        GoMap.get cache (k.pidNs.toNat : Int) = some c → ∀ d, ∃ s ∈ ss, Reports tbl d (c, (k, v)) s := by
  obtain ⟨ms, hq, -, hm⟩ := Probe.c32_query_all_partial tbl hasFiller hist hz stored ho fuel hf
  have hres : ∀ x, x ∈ resolved cache "" ms ↔ x.2 ∈ ms ∧ GoMap.get cache (x.2.1.pidNs.toNat : Int) = some x.1 := by
    intro x
    unfold resolved
    rw [List.mem_filterMap]
    constructor
    · rintro ⟨m, hm, h2⟩
      cases hg : GoMap.get cache (m.1.pidNs.toNat : Int) with
      | none => rw [hg] at h2; cases h2
      | some c =>
        rw [hg] at h2
        simp only [Option.bind_some, true_or, if_true, Option.some.injEq] at h2
        rw [← h2]; exact ⟨hm, hg⟩
    · rintro ⟨h1, h2⟩
      exact ⟨x.2, h1, by rw [h2]; simp⟩
  obtain ⟨ss, hs, -, h3, -⟩ := c61_samples_partial tbl cache ms (fun x hx => by
    have := (hres x).1 hx
    exact hk x.2.1 x.2.2 ((hm _ _).1 this.1) (by rw [this.2]; exact Option.some_ne_none _))
  refine ⟨ms, ss, hq, hs, fun k v c hg hc d => h3 (c, (k, v)) ((hres _).2 ⟨(hm k v).2 hg, hc⟩) d⟩

/-- C61 violated (1), for all metrics: one metric of a known container with a syscall that is not
in the tables, and the whole collection panics. -/
theorem c61_crash_violated (tbl : Syscalls) (cache : Cache) (ms : List Metric) (x : Container × Metric)
    (hx : x ∈ resolved cache "" ms) (hk : ¬ Known tbl x.2) : collect tbl (some cache) ms = none := by
  obtain ⟨m, hm, h2⟩ := List.mem_filterMap.1 hx
  cases hg : GoMap.get cache (m.1.pidNs.toNat : Int) with
  | none => rw [hg] at h2; cases h2
  | some c =>
    rw [hg] at h2
    simp only [Option.bind_some, true_or, if_true, Option.some.injEq] at h2
    subst h2
    have hs : lookup tbl (.int (m.1.syscall.toNat : Int)) = none := by
      cases h : lookup tbl (.int (m.1.syscall.toNat : Int)) with
      | none => rfl
      | some sc => exact absurd ⟨sc, h⟩ hk
    unfold collect
    dsimp only
    rw [mapM_none hm]; · rfl
    unfold collectOne containerOf Topology.lookupContainer syscallOf
    rw [hg]
    dsimp only
    rw [hs]

/-- C61 violated (1) is met in practice: no syscall from number 333 on is in the tables; clone3
is 435. -/
theorem c61_clone3_violated (order : List (String × String × String)) (ho : order.Perm gClassMap)
    (tbl : Syscalls) (ht : new order = some tbl) (cache : Cache) (ms : List Metric) (x : Container × Metric)
    (hx : x ∈ resolved cache "" ms) (h : 333 ≤ x.2.1.syscall.toNat) : collect tbl (some cache) ms = none := by
  refine c61_crash_violated tbl cache ms x hx ?_
  rintro ⟨sc, hsc⟩
  have h1 := Props.Syscalls.c43_lookup_sound order ho tbl ht _ sc hsc
  have h2 : sc.nr ∈ gSyscallMap.map (·.2) := List.mem_map.2 ⟨_, h1.1.1, rfl⟩
  rw [Lemmas.Syscalls.nrs_eq_range] at h2
  have h3 := List.mem_range.1 h2
  have h4 := h1.2
  simp only at h4
  omega

example : (demoC "a" 7, demoM 7 435 0 1) ∈ resolved demoCache "" [demoM 7 0 0 5, demoM 7 435 0 1] := by decide +kernel

/-- C61 violated (2): two error numbers without a name make two samples of the same series,
which the registry rejects. -/
theorem c61_duplicate_violated :
    (collect demoTbl (some demoCache) [demoM 7 0 41 1, demoM 7 0 58 2]).map
      (fun ss => ((ss.map fun s => (s.desc, s.labels)).Nodup : Bool)) = some false := by decide +kernel

/-! ### C73 -/

/-- The table after some ticks, each with the containers and metrics of its time. -/
def tableAfter (tbl : Syscalls) (ticks : List (Cache × List Metric)) : Agg :=
  ticks.foldl (fun agg t => (tick tbl agg t.1 t.2).agg) []

/-- Counts a float64 holds exactly. -/
def SmallCounts (ms : List Metric) : Prop := ∀ m ∈ ms, m.2.count.toNat ≤ 2 ^ 53

instance (ms : List Metric) : Decidable (SmallCounts ms) := inferInstanceAs (Decidable (∀ m ∈ ms, _))

theorem resolved_small {cache : Cache} {ns : String} {ms : List Metric} (h : SmallCounts ms) :
    ∀ x ∈ resolved cache ns ms, x.2.2.count.toNat ≤ 2 ^ 53 := by
  intro x hx
  obtain ⟨m, hm, h2⟩ := List.mem_filterMap.1 hx
  cases hg : GoMap.get cache (m.1.pidNs.toNat : Int) with
  | none => rw [hg] at h2; cases h2
  | some c =>
    rw [hg, Option.bind_some] at h2
    split at h2
    · obtain rfl := Option.some.inj h2
      exact h m hm
    · cases h2

theorem table_small (tbl : Syscalls) (ticks : List (Cache × List Metric)) (h : ∀ t ∈ ticks, SmallCounts t.2) :
    Small (tableAfter tbl ticks) := by
  unfold tableAfter
  induction ticks using snoc_ind with
  | h0 => intro k; exact ⟨Int.le_refl 0, by show (0 : Int) ≤ _; omega⟩
  | h1 ts t ih =>
    rw [List.foldl_append, List.foldl_cons, List.foldl_nil, tick_eq]
    exact rows_small tbl _ _ (ih fun u hu => h u (List.mem_append_left _ hu)) (resolved_small (h t (by simp)))

/-- C73: when no two metrics of a tick belong to the same row, the table shows after it the
current count of each of them, whatever it showed before. -/
theorem c73_current_partial (tbl : Syscalls) (ticks : List (Cache × List Metric)) (cache : Cache) (ms : List Metric)
    (hs : ∀ t ∈ ticks, SmallCounts t.2) (hm : SmallCounts ms)
    (hd : ((resolved cache "" ms).map (rowOf tbl)).Nodup) (x : Container × Metric) (hx : x ∈ resolved cache "" ms) :
    countAt (tableAfter tbl (ticks ++ [(cache, ms)])) (rowOf tbl x) = (x.2.2.count.toNat : Int) := by
  unfold tableAfter
  rw [List.foldl_append, List.foldl_cons, List.foldl_nil, tick_eq]
  obtain ⟨pre, post, hp⟩ := List.append_of_mem hx
  have hall := resolved_small (cache := cache) (ns := "") hm
  dsimp only
  rw [hp] at hd hall ⊢
  refine rows_last tbl pre post x _ (table_small tbl ticks hs) hall ?_
  intro y hy he
  rw [List.map_append, List.map_cons, List.nodup_append, List.nodup_cons] at hd
  exact hd.2.1.1 (List.mem_map.2 ⟨y, hy, he⟩)

/-- C73: the graphs show the change since the last tick: successes and errors apart. -/
theorem c73_change_partial (tbl : Syscalls) (ticks : List (Cache × List Metric)) (cache : Cache) (ms : List Metric)
    (hs : ∀ t ∈ ticks, SmallCounts t.2) (hd : ((resolved cache "" ms).map (rowOf tbl)).Nodup)
    (ht : total (resolved cache "" ms) ≤ 2 ^ 53)
    (ho : ((resolved cache "" ms).map fun x => countAt (tableAfter tbl ticks) (rowOf tbl x)).sum ≤ 2 ^ 53) :
    (tick tbl (tableAfter tbl ticks) cache ms).total =
      (((resolved cache "" ms).filter fun x => x.2.1.errno == 0).map fun x =>
        (x.2.2.count.toNat : Int) - countAt (tableAfter tbl ticks) (rowOf tbl x)).sum ∧
    (tick tbl (tableAfter tbl ticks) cache ms).errors =
      (((resolved cache "" ms).filter fun x => x.2.1.errno != 0).map fun x =>
        (x.2.2.count.toNat : Int) - countAt (tableAfter tbl ticks) (rowOf tbl x)).sum := by
  rw [tick_eq]
  exact rows_sums tbl _ (table_small tbl ticks hs) _ hd ht ho

def demoMs2 : List Metric := [demoM 7 0 0 9, demoM 8 0 4 2, demoM 7 2 2 4, demoM 9 0 0 200]

example : SmallCounts demoMs ∧ SmallCounts demoMs2 ∧ ((resolved demoCache "" demoMs2).map (rowOf demoTbl)).Nodup ∧
    (tick demoTbl (tableAfter demoTbl [(demoCache, demoMs)]) demoCache demoMs2).total = 4 ∧
    (tick demoTbl (tableAfter demoTbl [(demoCache, demoMs)]) demoCache demoMs2).errors = 1 ∧
    countAt (tableAfter demoTbl [(demoCache, demoMs), (demoCache, demoMs2)]) (rowOf demoTbl (demoC "a" 7, demoM 7 0 0 9)) = 9 := by
  decide +kernel

/-- C73 violated: metrics of different syscalls that are not in the tables share a row of their
container, which shows only the last of them, and the graph shows changes that did not happen. -/
theorem c73_shared_violated (tbl : Syscalls) (c : Container) (cache : Cache) (a b : Metric)
    (hc : ∀ m ∈ [a, b], GoMap.get cache (m.1.pidNs.toNat : Int) = some c)
    (ha : ¬ Known tbl a) (hb : ¬ Known tbl b) (he : a.1.errno = b.1.errno) (hs : SmallCounts [a, b]) (n : Nat) :
    countAt (tableAfter tbl (List.replicate n (cache, [a, b]) ++ [(cache, [a, b])])) (rowOf tbl (c, a)) =
      (b.2.count.toNat : Int) := by
  have hr : resolved cache "" [a, b] = [(c, a), (c, b)] := by
    rw [resolved_cons, resolved_cons, hc a (by simp), hc b (by simp)]
    simp [resolved]
  have hn : ∀ m, ¬ Known tbl m → lookup tbl (.int (m.1.syscall.toNat : Int)) = none := by
    intro m hm
    cases h : lookup tbl (.int (m.1.syscall.toNat : Int)) with
    | none => rfl
    | some sc => exact absurd ⟨sc, h⟩ hm
  have hk : rowOf tbl (c, a) = rowOf tbl (c, b) := by
    unfold rowOf
    dsimp only
    rw [hn a ha, hn b hb, he]
  unfold tableAfter
  rw [List.foldl_append, List.foldl_cons, List.foldl_nil, tick_eq, hk]
  dsimp only
  rw [hr]
  refine rows_last tbl [(c, a)] [] (c, b) _ (table_small tbl _ ?_) ?_ (fun y hy => by cases hy)
  · intro t ht
    rw [List.eq_of_mem_replicate ht]; exact hs
  · have := resolved_small (cache := cache) (ns := "") hs
    rw [hr] at this
    exact this

example : ¬ Known demoTbl (demoM 7 435 0 5) ∧ ¬ Known demoTbl (demoM 7 434 0 6) ∧
    (∀ m ∈ [demoM 7 435 0 5, demoM 7 434 0 6], GoMap.get demoCache (m.1.pidNs.toNat : Int) = some (demoC "a" 7)) := by
  decide +kernel

end Swoll.Props.Views
