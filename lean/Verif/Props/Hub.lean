import Verif.Lemmas.HubSample
import Verif.Props.Syscalls
/-
C08-C19, C64: the hub's job indexes, deletion, event routing, sampling and kernel coverage.
-/
namespace Swoll.Props.Hub
open Swoll.Filter hiding Op step run
open Swoll Swoll.Syscalls Swoll.Hub Swoll.Spec.Hub Swoll.Lemmas.Hub

/-- The hub as made by `NewHub` on freshly loaded maps. -/
def start (tbl : Syscalls) : Hub := Hub.init (newHubMaps tbl KMaps.empty)

/-- The table built by `syscalls.New` satisfies `TableOK`, whatever the map iteration order. -/
theorem table_ok (order : List (String × String × String)) (h : order.Perm gClassMap)
    (s : Syscalls) (hs : new order = some s) : TableOK s := by
  constructor
  · intro k sc hl
    obtain ⟨he, _⟩ := Props.Syscalls.c43_lookup_sound order h s hs k sc hl
    refine ⟨?_, ?_⟩
    · have := (Props.Syscalls.c43_lookup_complete order h s hs _ _ _ _ he).1
      rw [this]
    · have h1 : sc.nr ∈ gSyscallMap.map (·.2) := List.mem_map.2 ⟨_, he.1, rfl⟩
      rw [Lemmas.Syscalls.nrs_eq_range] at h1
      exact List.mem_range.1 h1
  · intro n sc hl
    exact (Props.Syscalls.c43_lookup_sound order h s hs (.int n) sc hl).2

/-! ### C08 -/

/-- C08: after any history, the list found for a (namespace, syscall) pair is exactly the
registrations of that pair and the list found for a job id exactly the registrations of that
job, in order of registration; lookups answer "nothing" exactly when there is none. -/
theorem c08_indexes (tbl : Syscalls) (m : KMaps) (ops : List Op) (h : Hub) (hr : run tbl (Hub.init m) ops = some h) :
    (∀ ns nr, listing (findJobList h ns nr) = ofPair (registered ops) ns nr ∧
      (findJobList h ns nr = none ↔ ofPair (registered ops) ns nr = [])) ∧
    (∀ id, listing (findJobListByID h id) = ofId (registered ops) id ∧
      (findJobListByID h id = none ↔ ofId (registered ops) id = [])) := by
  obtain ⟨R, hi, e⟩ := inv_reach tbl hr
  constructor
  · intro ns nr
    unfold listing
    rw [find_eq, hi.ns.find, ne_getD, map_pairOf, e]
    refine ⟨rfl, ?_⟩
    rw [← e, ← map_pairOf, List.map_eq_nil_iff]
    constructor
    · exact ne_none
    · intro h; rw [h]; rfl
  · intro id
    unfold listing findJobListByID
    rw [hi.id, ne_getD, map_idOf, e]
    refine ⟨rfl, ?_⟩
    rw [← e, ← map_idOf, List.map_eq_nil_iff]
    constructor
    · exact ne_none
    · intro h; rw [h]; rfl

/-- C08: the two indexes hold the very same contexts. -/
theorem c08_mirror (tbl : Syscalls) (m : KMaps) (ops : List Op) (h : Hub) (hr : run tbl (Hub.init m) ops = some h)
    (c : Ctx) :
    (∃ l, findJobListByID h c.job.id = some l ∧ c ∈ l) ↔ (∃ l, findJobList h c.ns c.nr = some l ∧ c ∈ l) := by
  obtain ⟨R, hi, e⟩ := inv_reach tbl hr
  have hA : (∃ l, findJobListByID h c.job.id = some l ∧ c ∈ l) ↔ c ∈ R := by
    unfold findJobListByID
    rw [hi.id]
    constructor
    · rintro ⟨l, hl, hc⟩
      obtain ⟨rfl, _⟩ := ne_some hl
      exact (List.mem_filter.1 hc).1
    · intro hc
      have : c ∈ idOf R c.job.id := List.mem_filter.2 ⟨hc, by simp⟩
      exact ⟨_, by unfold ne; rw [if_neg (List.ne_nil_of_mem this)], this⟩
  have hB : (∃ l, findJobList h c.ns c.nr = some l ∧ c ∈ l) ↔ c ∈ R := by
    rw [find_eq, hi.ns.find]
    constructor
    · rintro ⟨l, hl, hc⟩
      obtain ⟨rfl, _⟩ := ne_some hl
      exact (List.mem_filter.1 hc).1
    · intro hc
      exact ⟨_, by unfold ne; rw [if_neg (List.ne_nil_of_mem (mem_pairOf hc))], mem_pairOf hc⟩
  rw [hA, hB]

/-- C08: nothing empty is retained: a namespace has a table exactly when something is
registered in it, and no stored table or list is empty. -/
theorem c08_no_leftovers (tbl : Syscalls) (m : KMaps) (ops : List Op) (h : Hub) (hr : run tbl (Hub.init m) ops = some h) :
    (∀ ns, (GoMap.get h.nsmap ns).isSome ↔ ∃ r ∈ registered ops, r.ns = ns) ∧
    (∀ ns t, GoMap.get h.nsmap ns = some t → t ≠ []) ∧
    (∀ ns nr l, findJobList h ns nr = some l → l ≠ []) ∧
    (∀ id l, findJobListByID h id = some l → l ≠ []) := by
  obtain ⟨R, hi, e⟩ := inv_reach tbl hr
  refine ⟨?_, hi.ns.full, ?_, ?_⟩
  · intro ns
    constructor
    · intro hs
      obtain ⟨t, ht⟩ := Option.isSome_iff_exists.1 hs
      have hne := hi.ns.full ns t ht
      obtain ⟨⟨nr, l⟩, hmem⟩ := List.exists_mem_of_ne_nil _ hne
      have hk : nr ∈ GoMap.keys t := List.mem_map.2 ⟨_, hmem, rfl⟩
      obtain ⟨l', hl'⟩ := Option.isSome_iff_exists.1 ((GoMap.mem_keys_iff t nr).1 hk)
      have hf : findIn h.nsmap ns nr = some l' := by unfold findIn; rw [ht]; exact hl'
      rw [hi.ns.find] at hf
      obtain ⟨rfl, hn⟩ := ne_some hf
      obtain ⟨c, hc⟩ := List.exists_mem_of_ne_nil _ hn
      unfold pairOf at hc
      rw [List.mem_filter] at hc
      refine ⟨reg c, by rw [← e]; exact List.mem_map.2 ⟨c, hc.1, rfl⟩, ?_⟩
      have : c.ns = ns ∧ c.nr = nr := by simpa using hc.2
      exact this.1
    · rintro ⟨r, hr, rfl⟩
      rw [← e] at hr
      obtain ⟨c, hc, rfl⟩ := List.mem_map.1 hr
      have hf := hi.ns.find c.ns c.nr
      unfold ne at hf
      rw [if_neg (List.ne_nil_of_mem (mem_pairOf hc))] at hf
      unfold findIn at hf
      show (GoMap.get h.nsmap c.ns).isSome = true
      cases hg : GoMap.get h.nsmap c.ns with
      | none => rw [hg] at hf; cases hf
      | some t => rfl
  · intro ns nr l hl
    rw [find_eq, hi.ns.find] at hl
    obtain ⟨rfl, hn⟩ := ne_some hl
    exact hn
  · intro id l hl
    unfold findJobListByID at hl
    rw [hi.id] at hl
    obtain ⟨rfl, hn⟩ := ne_some hl
    exact hn

/-! ### C09 -/

/-- C09: `DeleteTrace` never takes its fatal exit; it reports an unknown job exactly when the
job has no registration (and an error leaves everything as it was). -/
theorem c09_delete (tbl : Syscalls) (m : KMaps) (ops : List Op) (h : Hub) (hr : run tbl (Hub.init m) ops = some h)
    (id : String) :
    deleteTrace tbl h id ≠ .fatal ∧
    (deleteTrace tbl h id = .notFound ↔ ofId (registered ops) id = []) ∧
    (ofId (registered ops) id = [] → step tbl h (.delete id) = some (h, false, [])) ∧
    (ofId (registered ops) id ≠ [] → ∃ h', step tbl h (.delete id) = some (h', true, [])) := by
  obtain ⟨R, hi, e⟩ := inv_reach tbl hr
  have he : ofId (registered ops) id = [] ↔ idOf R id = [] := by
    rw [← e, ← map_idOf, List.map_eq_nil_iff]
  rw [he]
  rcases delete_spec tbl hi id with ⟨h0, hd⟩ | ⟨h0, h1, hd, _⟩
  · rw [hd]
    refine ⟨nofun, by simp [h0], ?_, fun hx => absurd (he.2 h0) hx⟩
    intro _
    simp [step, hd]
  · rw [hd]
    refine ⟨nofun, by simp [h0], fun hx => absurd hx h0, ?_⟩
    intro _
    exact ⟨h1, by simp [step, hd]⟩

/-! ### C10 -/

/-- C10: deleting a job removes its registrations and no others: every pair keeps its other
registrations, in order; other job ids keep theirs; the deleted id has none left. -/
theorem c10_only_own (tbl : Syscalls) (m : KMaps) (ops : List Op) (h h' : Hub)
    (hr : run tbl (Hub.init m) ops = some h) (id : String) (hd : deleteTrace tbl h id = .done h') :
    (∀ ns nr, listing (findJobList h' ns nr) =
      (listing (findJobList h ns nr)).filter (fun r => r.job.id ≠ id)) ∧
    findJobListByID h' id = none ∧
    (∀ id', id' ≠ id → listing (findJobListByID h' id') = listing (findJobListByID h id')) := by
  have hr' : run tbl (Hub.init m) (ops ++ [.delete id]) = some h' := by
    rw [run_append_eq tbl _ _ _ _ hr]; simp [run, step, hd]
  have hreg : registered (ops ++ [.delete id]) = (registered ops).filter (fun r => r.job.id ≠ id) := by
    unfold registered; rw [List.foldl_append]; rfl
  obtain ⟨a1, b1⟩ := c08_indexes tbl m ops h hr
  obtain ⟨a2, b2⟩ := c08_indexes tbl m _ h' hr'
  refine ⟨?_, ?_, ?_⟩
  · intro ns nr
    rw [(a1 ns nr).1, (a2 ns nr).1, hreg]
    unfold ofPair
    rw [List.filter_filter, List.filter_filter]
    apply List.filter_congr
    intro x _; exact Bool.and_comm _ _
  · rw [(b2 id).2, hreg]
    unfold ofId
    rw [List.filter_filter, List.filter_eq_nil_iff]
    intro x _; simp
  · intro id' hne
    rw [(b1 id').1, (b2 id').1, hreg]
    unfold ofId
    rw [List.filter_filter]
    apply List.filter_congr
    intro x _
    rw [Bool.eq_iff_iff]
    simp only [ne_eq, decide_not, Bool.and_eq_true, decide_eq_true_eq, Bool.not_eq_true', decide_eq_false_iff_not]
    constructor
    · exact And.left
    · intro h1; exact ⟨h1, by rw [h1]; exact hne⟩

/-- C10: a kernel filter entry disappears exactly when it belongs to a pair of the deleted job
for which no other job is registered; every other entry, and the filter configuration, stay. -/
theorem c10_reference_count (tbl : Syscalls) (m : KMaps) (ops : List Op) (h h' : Hub)
    (hr : run tbl (Hub.init m) ops = some h) (id : String) (hd : deleteTrace tbl h id = .done h') (k : FilterKey) :
    ((∃ r ∈ registered ops, r.job.id = id ∧ ruleKey tbl r.ns r.nr = some k ∧
        ¬ ∃ r' ∈ registered ops, r'.job.id ≠ id ∧ r'.ns = r.ns ∧ r'.nr = r.nr) →
      GoMap.get h'.maps.filter k = none) ∧
    ((¬ ∃ r ∈ registered ops, r.job.id = id ∧ ruleKey tbl r.ns r.nr = some k ∧
        ¬ ∃ r' ∈ registered ops, r'.job.id ≠ id ∧ r'.ns = r.ns ∧ r'.nr = r.nr) →
      GoMap.get h'.maps.filter k = GoMap.get h.maps.filter k) ∧
    h'.maps.config = h.maps.config := by
  obtain ⟨R, hi, e⟩ := inv_reach tbl hr
  rcases delete_spec tbl hi id with ⟨_, hx⟩ | ⟨_, h1, hx, _, hmaps, _⟩
  · rw [hx] at hd; cases hd
  · rw [hx] at hd; injection hd with hd; subst hd
    rw [hmaps]
    obtain ⟨g1, g2⟩ := mapsAfter_get tbl k (idOf R id) R h.maps hi.nodup
      (List.Nodup.sublist ((List.filter_sublist).map _) hi.nodup) (fun c hc => (List.mem_filter.1 hc).1)
    have hiff : (∃ r ∈ registered ops, r.job.id = id ∧ ruleKey tbl r.ns r.nr = some k ∧
        ¬ ∃ r' ∈ registered ops, r'.job.id ≠ id ∧ r'.ns = r.ns ∧ r'.nr = r.nr) ↔
        (∃ c ∈ idOf R id, pairOf (withoutAll R (idOf R id)) c.ns c.nr = [] ∧ ruleKey tbl c.ns c.nr = some k) := by
      rw [← e, withoutAll_idOf hi.nodup]
      have hp : ∀ c : Ctx, pairOf (R.filter (fun c => decide (c.job.id ≠ id))) c.ns c.nr = [] ↔
          ¬ ∃ r' ∈ R.map reg, r'.job.id ≠ id ∧ r'.ns = c.ns ∧ r'.nr = c.nr := by
        intro c
        unfold pairOf
        rw [List.filter_filter, List.filter_eq_nil_iff]
        constructor
        · rintro h1 ⟨r', hr', a, b⟩
          obtain ⟨x, hx, rfl⟩ := List.mem_map.1 hr'
          exact h1 x hx (by simp only [Bool.and_eq_true, decide_eq_true_eq]; exact ⟨b, a⟩)
        · intro h1 x hx h2
          simp only [Bool.and_eq_true, decide_eq_true_eq] at h2
          exact h1 ⟨reg x, List.mem_map.2 ⟨x, hx, rfl⟩, h2.2, h2.1⟩
      constructor
      · rintro ⟨r, hr, a, b, c⟩
        obtain ⟨x, hx, rfl⟩ := List.mem_map.1 hr
        exact ⟨x, List.mem_filter.2 ⟨hx, by simpa [reg] using a⟩, (hp x).2 c, b⟩
      · rintro ⟨x, hx, a, b⟩
        have hx' := List.mem_filter.1 hx
        exact ⟨reg x, List.mem_map.2 ⟨x, hx'.1, rfl⟩, by simpa [reg] using hx'.2, b, (hp x).1 a⟩
    exact ⟨fun hx => g1 (hiff.1 hx), fun hx => g2 (fun hy => hx (hiff.2 hy)), mapsAfter_config tbl _ _ _⟩

/-! ### C11 -/

/-- C11: an event whose container is unknown, or for which nothing is registered, is published
nowhere and changes nothing. -/
theorem c11_dropped (tbl : Syscalls) (m : KMaps) (ops : List Op) (h : Hub) (hr : run tbl (Hub.init m) ops = some h)
    (e : Event) (hd : e.hasContainer = false ∨ ofPair (registered ops) e.ns e.nr = []) :
    handleEvent h e = some (h, []) := by
  have h1 := ((c08_indexes tbl m ops h hr).1 e.ns e.nr).2
  unfold handleEvent
  rcases hd with hd | hd
  · simp [hd]
  · rw [h1.2 hd]; simp

/-- C11: any other event is published once on the namespace path, then handed once to every
registration of its pair, in order: unsampled jobs are published to once per registration,
sampled jobs at most so and count one event per registration, and no other job is concerned.
Nothing but the counters changes. -/
theorem c11_routing (tbl : Syscalls) (m : KMaps) (ops : List Op) (h h' : Hub) (hr : run tbl (Hub.init m) ops = some h)
    (e : Event) (out : List Out) (he : handleEvent h e = some (h', out)) (hc : e.hasContainer = true)
    (hne : ofPair (registered ops) e.ns e.nr ≠ []) :
    ∃ rest, out = .nsStream :: rest ∧
      rest.Sublist ((ofPair (registered ops) e.ns e.nr).map (fun r => .jobStream r.job.id)) ∧
      (∀ id, (∀ r ∈ ofPair (registered ops) e.ns e.nr, r.job.id = id → r.job.rate ≤ 0) →
        rest.count (.jobStream id) = (ofId (ofPair (registered ops) e.ns e.nr) id).length) ∧
      (∀ ref, h'.sampled ref = h.sampled ref + ((ofPair (registered ops) e.ns e.nr).filter
        (fun r => r.job.ref = ref ∧ r.job.rate > 0)).length) ∧
      h'.nsmap = h.nsmap ∧ h'.idmap = h.idmap ∧ h'.maps = h.maps := by
  obtain ⟨R, hi, er⟩ := inv_reach tbl hr
  rw [← er, ← map_pairOf] at hne ⊢
  have hne' : pairOf R e.ns e.nr ≠ [] := fun hx => hne (by rw [hx]; rfl)
  unfold handleEvent at he
  rw [if_pos hc, find_eq, hi.ns.find] at he
  unfold ne at he
  rw [if_neg hne'] at he
  dsimp only at he
  rcases findLowest_spec hi e.ns e.nr with ⟨hx, _⟩ | ⟨m0, hm, _⟩
  · exact absurd hx hne'
  · obtain ⟨w1, w2⟩ := writeAll_spec e.ns e.nr m0 (pairOf R e.ns e.nr) h hm
    by_cases hb : ∃ c ∈ pairOf R e.ns e.nr, c.job.rate > 0 ∧ period m0 c = 0
    · rw [w1 hb] at he; cases he
    · obtain ⟨h1, o1, e1, s, k, sub, cnt⟩ := w2 (fun c hc hx => hb ⟨c, hc, hx⟩)
      rw [e1] at he
      simp only [Option.some.injEq, Prod.mk.injEq] at he
      obtain ⟨rfl, rfl⟩ := he
      refine ⟨o1, rfl, ?_, ?_, ?_, s.nsmap, s.idmap, s.maps⟩
      · rw [List.map_map]; exact sub
      · intro id hid
        rw [cnt id (fun c hc hx => by
          have := hid (reg c) (List.mem_map.2 ⟨c, hc, rfl⟩) hx
          have h2 : c.job.rate ≤ 0 := this
          omega)]
        unfold ofId
        rw [List.filter_map, List.length_map]; rfl
      · intro ref
        rw [k ref, List.filter_map, List.length_map]; rfl

/-! ### C12 -/

/-- C12 (partial): a job id registered at most once for the event's pair is published to at
most once.  Missing: the general claim, which is false (`c12_violated`). -/
theorem c12_at_most_once_partial (tbl : Syscalls) (m : KMaps) (ops : List Op) (h h' : Hub)
    (hr : run tbl (Hub.init m) ops = some h) (e : Event) (out : List Out)
    (he : handleEvent h e = some (h', out)) (id : String)
    (hone : (ofId (ofPair (registered ops) e.ns e.nr) id).length ≤ 1) :
    out.count (.jobStream id) ≤ 1 := by
  by_cases hd : e.hasContainer = false ∨ ofPair (registered ops) e.ns e.nr = []
  · rw [c11_dropped tbl m ops h hr e hd] at he
    simp only [Option.some.injEq, Prod.mk.injEq] at he
    rw [← he.2]; simp
  · obtain ⟨rest, rfl, hs, _⟩ := c11_routing tbl m ops h h' hr e out he
      (by cases hh : e.hasContainer with
        | false => exact absurd (Or.inl hh) hd
        | true => rfl) (fun hx => hd (Or.inr hx))
    have h1 := hs.count_le (.jobStream id)
    have h2 : ((ofPair (registered ops) e.ns e.nr).map (fun r => Out.jobStream r.job.id)).count (.jobStream id) =
        (ofId (ofPair (registered ops) e.ns e.nr) id).length := by
      unfold ofId
      rw [List.count, List.countP_map, ← List.countP_eq_length_filter]
      apply List.countP_congr
      intro x _
      simp
    rw [List.count_cons]
    simp
    omega

/-- A small table and jobs for the examples below. -/
def demoTbl : Syscalls :=
  ⟨[(257, ⟨257, "sys_openat", "FileSystem", "Files"⟩), (0, ⟨0, "sys_read", "FileSystem", "IO"⟩)],
   [("sys_openat", ⟨257, "sys_openat", "FileSystem", "Files"⟩), ("sys_read", ⟨0, "sys_read", "FileSystem", "IO"⟩)]⟩

def jobA : Job := ⟨1, "a", 0⟩
def jobB : Job := ⟨2, "b", 0⟩

/-- What an event publishes after a history. -/
def published (ops : List Op) (e : Event) : Option (List Out) :=
  (run demoTbl (start demoTbl) ops).bind (fun h => (handleEvent h e).map (·.2))

/-- C12 violated: when the same container is announced twice to a job (or its specification
names the syscall twice), the job gets every event twice. -/
theorem c12_violated :
    published (callOps jobA 4026532000 ⟨257, "sys_openat", "FileSystem", "Files"⟩ {} {} ++
      callOps jobA 4026532000 ⟨257, "sys_openat", "FileSystem", "Files"⟩ {} {})
      ⟨4026532000, 257, true⟩ = some [.nsStream, .jobStream "a", .jobStream "a"] := by
  decide +kernel

/-! ### C13 -/

/-- C13: the lowest-sample lookup never crashes, answers nothing exactly when the pair has no
registration, and otherwise gives the earliest registration of least rate. -/
theorem c13_lowest (tbl : Syscalls) (m : KMaps) (ops : List Op) (h : Hub) (hr : run tbl (Hub.init m) ops = some h)
    (ns nr : Int) :
    findLowestSampleJob h ns nr ≠ none ∧
    (findLowestSampleJob h ns nr = some none ↔ ofPair (registered ops) ns nr = []) ∧
    (∀ c, findLowestSampleJob h ns nr = some (some c) → IsLowest (ofPair (registered ops) ns nr) (reg c)) := by
  obtain ⟨R, hi, e⟩ := inv_reach tbl hr
  rw [← e, ← map_pairOf]
  rcases findLowest_spec hi ns nr with ⟨hx, he⟩ | ⟨m0, he, pre, post, hp, a, b⟩
  · rw [he, hx]; simp
  · rw [he, hp]
    refine ⟨nofun, by simp, ?_⟩
    intro c hc
    injection hc with hc; injection hc with hc; subst hc
    refine ⟨pre.map reg, post.map reg, by simp, ?_, ?_⟩
    · intro x hx; obtain ⟨y, hy, rfl⟩ := List.mem_map.1 hx; exact a y hy
    · intro x hx; obtain ⟨y, hy, rfl⟩ := List.mem_map.1 hx; exact b y hy

/-- The earliest registration of least rate is unique, so C13 determines the answer. -/
theorem c13_lowest_unique (rs : List Reg) (a b : Reg) (ha : IsLowest rs a) (hb : IsLowest rs b) : a = b := by
  obtain ⟨p, q, e, h1, h2⟩ := ha
  obtain ⟨p', q', e', h1', h2'⟩ := hb
  rw [e] at e'
  rcases List.append_eq_append_iff.1 e' with ⟨z, hz, hz'⟩ | ⟨z, hz, hz'⟩
  · cases z with
    | nil => simp at hz'; exact hz'.1
    | cons y ys =>
      rw [List.cons_append] at hz'
      injection hz' with e1 e2
      subst e1
      have hmem : a ∈ p' := by rw [hz]; simp
      have hb1 : b ∈ q := by rw [e2]; simp
      have := h1' a hmem
      have := h2 b hb1
      omega
  · cases z with
    | nil => simp at hz'; exact hz'.1.symm
    | cons y ys =>
      rw [List.cons_append] at hz'
      injection hz' with e1 e2
      subst e1
      have hmem : b ∈ p := by rw [hz]; simp
      have ha1 : a ∈ q' := by rw [e2]; simp
      have := h1 b hmem
      have := h2' a ha1
      omega

/-! ### C14 -/

/-- What is proved about sampling: for a job registered once for the pair, event number `i`
(from 1) of a run of events of the pair is published to it exactly when `i`, counted on from
the job's counter, is divisible by its own rate if it holds the lowest rate of the pair, and
by the difference to the lowest rate otherwise. -/
theorem c14_actual (tbl : Syscalls) (m : KMaps) (ops : List Op) (h h' : Hub) (hr : run tbl (Hub.init m) ops = some h)
    (ns nr : Int) (r low : Reg) (hmem : r ∈ ofPair (registered ops) ns nr)
    (hlow : IsLowest (ofPair (registered ops) ns nr) low) (hpos : r.job.rate > 0)
    (hsingle : ((ofPair (registered ops) ns nr).filter
      (fun x => x.job.ref = r.job.ref ∨ x.job.id = r.job.id)).length = 1)
    (n : Nat) (outs : List (List Out))
    (hall : handleAll h (List.replicate n ⟨ns, nr, true⟩) = some (h', outs)) :
    outs.length = n ∧ ∀ i (hi : i < outs.length), (.jobStream r.job.id ∈ outs[i] ↔
      (if low.job.ref = r.job.ref then r.job.rate else r.job.rate - low.job.rate) ∣
        h.sampled r.job.ref + (i + 1)) := by
  obtain ⟨R, hinv, er⟩ := inv_reach tbl hr
  have hmap := map_pairOf R ns nr
  rw [er] at hmap
  rw [← hmap] at hmem hsingle
  obtain ⟨c, hc, rfl⟩ := List.mem_map.1 hmem
  rw [List.filter_map, List.length_map] at hsingle
  have hndP : ((pairOf R ns nr).map (·.cid)).Nodup := List.Nodup.sublist ((List.filter_sublist).map _) hinv.nodup
  have huniq : ∀ x ∈ pairOf R ns nr, (x.job.ref = c.job.ref ∨ x.job.id = c.job.id) → x = c := by
    intro x hx hor
    obtain ⟨d, hd⟩ := List.length_eq_one_iff.1 hsingle
    have m1 : x ∈ [d] := by rw [← hd]; exact List.mem_filter.2 ⟨hx, decide_eq_true (p := x.job.ref = c.job.ref ∨ x.job.id = c.job.id) hor⟩
    have m2 : c ∈ [d] := by rw [← hd]; exact List.mem_filter.2 ⟨hc, by simp [reg]⟩
    rw [List.mem_singleton] at m1 m2
    rw [m1, m2]
  have hne : pairOf R ns nr ≠ [] := List.ne_nil_of_mem hc
  -- the loop
  have loop : ∀ (n : Nat) (h h' : Hub) (outs : List (List Out)), Inv h R →
      handleAll h (List.replicate n ⟨ns, nr, true⟩) = some (h', outs) →
      outs.length = n ∧ ∀ i (hi : i < outs.length), (.jobStream c.job.id ∈ outs[i] ↔
        (if low.job.ref = c.job.ref then c.job.rate else c.job.rate - low.job.rate) ∣
          h.sampled c.job.ref + (i + 1)) := by
    intro n
    induction n with
    | zero =>
      intro h h' outs _ hall
      simp only [List.replicate, handleAll, Option.some.injEq, Prod.mk.injEq] at hall
      obtain ⟨_, rfl⟩ := hall
      exact ⟨rfl, fun i hi => absurd hi (by simp)⟩
    | succ n ih =>
      intro h h' outs hi hall
      rw [List.replicate_succ] at hall
      unfold handleAll at hall
      cases hev : handleEvent h ⟨ns, nr, true⟩ with
      | none => rw [hev] at hall; cases hall
      | some r1 =>
        obtain ⟨h1, o⟩ := r1
        rw [hev] at hall
        simp only [Option.map_eq_some_iff] at hall
        obtain ⟨⟨h2, os⟩, hrest, heq⟩ := hall
        simp only [Prod.mk.injEq] at heq
        obtain ⟨rfl, rfl⟩ := heq
        have hsame := handleEvent_same hi hev
        obtain ⟨ih1, ih2⟩ := ih h1 h2 os (hsame.inv hi) hrest
        unfold handleEvent at hev
        simp only [if_true] at hev
        rw [find_eq, hi.ns.find] at hev
        unfold ne at hev
        rw [if_neg hne] at hev
        dsimp only at hev
        rcases findLowest_spec hi ns nr with ⟨hx, _⟩ | ⟨m0, hm, pre, post, hp, a, b⟩
        · exact absurd hx hne
        · have hm0 : reg m0 = low := by
            refine c13_lowest_unique _ _ _ ?_ hlow
            rw [← hmap, hp]
            refine ⟨pre.map reg, post.map reg, by simp, ?_, ?_⟩
            · intro x hx; obtain ⟨y, hy, rfl⟩ := List.mem_map.1 hx; exact a y hy
            · intro x hx; obtain ⟨y, hy, rfl⟩ := List.mem_map.1 hx; exact b y hy
          have hper : period m0 c = (if low.job.ref = c.job.ref then c.job.rate else c.job.rate - low.job.rate) := by
            unfold period; rw [← hm0]; rfl
          cases hw : writeAll ns nr h (pairOf R ns nr) with
          | none => rw [hw] at hev; cases hev
          | some r2 =>
            obtain ⟨h3, o3⟩ := r2
            rw [hw] at hev
            simp only [Option.some.injEq, Prod.mk.injEq] at hev
            obtain ⟨rfl, rfl⟩ := hev
            have hmemo := (writeAll_mem ns nr m0 c _ h h3 o3 hm hw (fun x hx he => by rw [huniq x hx (Or.inl he)])
              (fun x hx he => by rw [huniq x hx (Or.inr he)]) hndP).1 hc
              (fun x hx he => eq_of_cid hndP hx hc he)
            have hcount : h3.sampled c.job.ref = h.sampled c.job.ref + 1 := by
              obtain ⟨w1, w2⟩ := writeAll_spec ns nr m0 (pairOf R ns nr) h hm
              by_cases hb : ∃ c ∈ pairOf R ns nr, c.job.rate > 0 ∧ period m0 c = 0
              · rw [w1 hb] at hw; cases hw
              · obtain ⟨h4, o4, e4, _, k4, _⟩ := w2 (fun c hc hx => hb ⟨c, hc, hx⟩)
                rw [e4] at hw
                simp only [Option.some.injEq, Prod.mk.injEq] at hw
                obtain ⟨rfl, _⟩ := hw
                rw [k4, hits_unique hc hndP (fun x hx he => huniq x hx (Or.inl he)) hpos]
                rfl
            refine ⟨by simp [ih1], ?_⟩
            intro i hil
            cases i with
            | zero =>
              simp only [List.getElem_cons_zero, List.mem_cons, reduceCtorEq, false_or]
              rw [hmemo, ← hper]
              constructor
              · intro hx; simpa using hx hpos
              · intro hx _; simpa using hx
            | succ i =>
              rw [List.getElem_cons_succ]
              rw [ih2 i (by simpa using hil), hcount]
              have : h.sampled c.job.ref + 1 + (↑i + 1) = h.sampled c.job.ref + (↑(i + 1) + 1) := by
                push_cast; omega
              rw [this]
  exact loop n h h' outs hinv hall

/-- C14 (partial): a job whose rate `r` is the lowest of its pair (and earliest on ties) and
which has only this registration is sent exactly every `r`-th event of the pair.  Missing:
jobs with a higher rate, for which the claim is false (`c14_violated`). -/
theorem c14_lowest_partial (tbl : Syscalls) (m : KMaps) (ops : List Op) (h h' : Hub)
    (hr : run tbl (Hub.init m) ops = some h) (ns nr : Int) (r : Reg)
    (hlow : IsLowest (ofPair (registered ops) ns nr) r) (hpos : r.job.rate > 0)
    (hsingle : ((ofPair (registered ops) ns nr).filter
      (fun x => x.job.ref = r.job.ref ∨ x.job.id = r.job.id)).length = 1)
    (hzero : h.sampled r.job.ref = 0) (n : Nat) (outs : List (List Out))
    (hall : handleAll h (List.replicate n ⟨ns, nr, true⟩) = some (h', outs)) :
    outs.length = n ∧ ∀ i (hi : i < outs.length), (.jobStream r.job.id ∈ outs[i] ↔ r.job.rate ∣ (i : Int) + 1) := by
  have hmem : r ∈ ofPair (registered ops) ns nr := by
    obtain ⟨p, q, e, _⟩ := hlow; rw [e]; simp
  have := c14_actual tbl m ops h h' hr ns nr r r hmem hlow hpos hsingle n outs hall
  rw [if_pos rfl, hzero] at this
  simpa using this

/-- The events a job id receives out of a sequence (positions from 1). -/
def received (ops : List Op) (es : List Event) (id : String) : Option (List Nat) :=
  (run demoTbl (start demoTbl) ops).bind (fun h => (handleAll h es).map (fun r =>
    ((List.range es.length).filter (fun i => (r.2[i]?.getD []).contains (.jobStream id))).map (· + 1)))

/-- C14 violated on the example of the comment in WriteEvent (rates 1, 2, 4 and events
e1..e8): the second job is promised e2, e4, e6, e8 and the third e4, e8; the second gets all
eight, the third e3 and e6. -/
theorem c14_violated :
    let ops : List Op := [.push ⟨1, "r1", 1⟩ 7000 257, .push ⟨2, "r2", 2⟩ 7000 257, .push ⟨3, "r3", 4⟩ 7000 257]
    received ops (List.replicate 8 ⟨7000, 257, true⟩) "r2" = some [1, 2, 3, 4, 5, 6, 7, 8] ∧
    received ops (List.replicate 8 ⟨7000, 257, true⟩) "r3" = some [3, 6] := by
  decide +kernel

/-- C14 violated even without other jobs: the counter is shared by all pairs of a job, so with
rate 2 and two syscalls used alternately, one of them is never reported. -/
theorem c14_shared_counter_violated :
    received [.push ⟨1, "j", 2⟩ 7000 0, .push ⟨1, "j", 2⟩ 7000 257]
      [⟨7000, 0, true⟩, ⟨7000, 257, true⟩, ⟨7000, 0, true⟩, ⟨7000, 257, true⟩, ⟨7000, 0, true⟩, ⟨7000, 257, true⟩] "j"
      = some [2, 4, 6] := by
  decide +kernel

/-! ### C15 -/

/-- C15 (partial, exact): delivering an event crashes exactly when its container is known and
some job registered for the pair has a positive rate equal to the lowest rate of the pair,
which is held by another job. -/
theorem c15_crash_iff_partial (tbl : Syscalls) (m : KMaps) (ops : List Op) (h : Hub)
    (hr : run tbl (Hub.init m) ops = some h) (e : Event) :
    handleEvent h e = none ↔ e.hasContainer = true ∧
      ∃ low r, IsLowest (ofPair (registered ops) e.ns e.nr) low ∧ r ∈ ofPair (registered ops) e.ns e.nr ∧
        r.job.rate > 0 ∧ r.job.ref ≠ low.job.ref ∧ r.job.rate = low.job.rate := by
  obtain ⟨R, hi, er⟩ := inv_reach tbl hr
  have hmap := map_pairOf R e.ns e.nr
  rw [er] at hmap
  unfold handleEvent
  cases hc : e.hasContainer with
  | false => simp
  | true =>
    simp only [if_true, true_and]
    rw [find_eq, hi.ns.find]
    rcases findLowest_spec hi e.ns e.nr with ⟨hx, _⟩ | ⟨m0, hm, pre, post, hp, a, b⟩
    · rw [hx] at hmap ⊢
      rw [← hmap]
      simp [ne]
    · have hlow : IsLowest (ofPair (registered ops) e.ns e.nr) (reg m0) := by
        rw [← hmap, hp]
        refine ⟨pre.map reg, post.map reg, by simp, ?_, ?_⟩
        · intro x hx; obtain ⟨y, hy, rfl⟩ := List.mem_map.1 hx; exact a y hy
        · intro x hx; obtain ⟨y, hy, rfl⟩ := List.mem_map.1 hx; exact b y hy
      have hne : pairOf R e.ns e.nr ≠ [] := by rw [hp]; simp
      unfold ne
      rw [if_neg hne]
      dsimp only
      obtain ⟨w1, w2⟩ := writeAll_spec e.ns e.nr m0 (pairOf R e.ns e.nr) h hm
      have hper : ∀ c : Ctx, c.job.rate > 0 → (period m0 c = 0 ↔ c.job.ref ≠ m0.job.ref ∧ c.job.rate = m0.job.rate) := by
        intro c hpos
        unfold period
        by_cases hj : m0.job.ref = c.job.ref
        · rw [if_pos hj]
          constructor
          · intro h0; omega
          · rintro ⟨h1, _⟩; exact absurd hj.symm h1
        · rw [if_neg hj]
          constructor
          · intro h0; exact ⟨fun e => hj e.symm, by omega⟩
          · rintro ⟨_, h1⟩; omega
      constructor
      · intro hnone
        apply Classical.byContradiction
        intro hno
        obtain ⟨h1, o1, e1, _⟩ := w2 (fun c hc hx => hno ⟨reg m0, reg c, hlow,
          by rw [← hmap]; exact List.mem_map.2 ⟨c, hc, rfl⟩, hx.1, ((hper c hx.1).1 hx.2).1, ((hper c hx.1).1 hx.2).2⟩)
        rw [e1] at hnone
        cases hnone
      · rintro ⟨low, r, hl, hrm, hpos, hne', heq⟩
        have := c13_lowest_unique _ _ _ hl hlow
        subst this
        rw [← hmap] at hrm
        obtain ⟨c, hcm, rfl⟩ := List.mem_map.1 hrm
        rw [w1 ⟨c, hcm, hpos, (hper c hpos).2 ⟨hne', heq⟩⟩]

/-- C15 violated: two jobs sampling the same syscall of the same container at the same rate
crash the process at the first event (division by zero). -/
theorem c15_violated :
    published [.push ⟨1, "a", 10⟩ 7000 257, .push ⟨2, "b", 10⟩ 7000 257] ⟨7000, 257, true⟩ = none ∧
    (run demoTbl (start demoTbl) [.push ⟨1, "a", 10⟩ 7000 257, .push ⟨2, "b", 10⟩ 7000 257]).isSome := by
  decide +kernel

/-! ### C16 -/

/-- C16 (partial): take any interleaving of the jobs' operations, deletions, events and kernel
activity.  Once a job has registered a pair and then added its rule, and as long as the job is
not deleted and no stop notification takes the rule out, the kernel's rule for the pair is
active and its action is "allow".  Missing: stop notifications of other containers in the same
pid namespace, which do take the rule out (`c16_violated`). -/
theorem c16_coverage_partial (tbl : Syscalls) (hT : TableOK tbl) (j : Job) (ns nr : Int) (sc : Syscall)
    (hl : lookup tbl (.int nr) = some sc) (pre mid post : List Op) (h : Hub)
    (hr : run tbl (start tbl) (pre ++ .push j ns nr :: (mid ++ .filter (.addSyscall (.int nr) ns {}) :: post)) = some h)
    (hsane : ∀ o ∈ pre ++ .push j ns nr :: (mid ++ .filter (.addSyscall (.int nr) ns {}) :: post), SaneOp o)
    (hdel : ∀ o ∈ mid ++ post, o ≠ .delete j.id) (hstop : ∀ o ∈ post, ¬ Stops tbl ns nr o) :
    ∃ k v, ruleKey tbl ns nr = some k ∧ Swoll.Spec.Filter.Enabled h.maps ∧
      Swoll.Spec.Filter.Active h.maps k v ∧ v.action = factionAllow ∧
      ((∀ o ∈ post, ¬ Samples tbl ns nr o) → v.sampleRate = 0 ∧
        ∀ tid, (Filter.step tbl h.maps (.callEvent (BitVec.ofInt 32 ns) tid (BitVec.ofNat 32 sc.nr))).2 = true) := by
  obtain ⟨h1, r1, hr⟩ := run_append tbl _ _ _ _ hr
  obtain ⟨R1, i1, _, s1, _⟩ := sane_run tbl pre _ _ [] (inv_init _) (by simp [Sane]) (fun o ho => hsane o (by simp [ho])) r1
  have q1 := rel_hubRun tbl pre _ _ [] (inv_init _) (rel_newHub tbl) r1
  rw [run_cons] at hr
  simp only [step, Option.bind_some] at hr
  obtain ⟨h3, r3, hr⟩ := run_append tbl _ _ _ _ hr
  have i2 := inv_push i1 j ns nr
  have s2 : Sane (R1 ++ [⟨h1.next, j, ns, nr⟩]) := by
    intro x hx
    rw [List.mem_append, List.mem_singleton] at hx
    rcases hx with hx | rfl
    · exact s1 x hx
    · exact hsane (.push j ns nr) (by simp)
  have hc2 : (⟨h1.next, j, ns, nr⟩ : Ctx) ∈ R1 ++ [⟨h1.next, j, ns, nr⟩] := by simp
  obtain ⟨R3, i3, _, s3, k3⟩ := sane_run tbl mid _ _ _ i2 s2 (fun o ho => hsane o (by simp [ho])) r3
  have hc3 := k3 _ hc2 (fun o ho => hdel o (by simp [ho]))
  have q3 := rel_hubRun tbl mid _ _ _ i2 (by exact q1) r3
  rw [run_cons] at hr
  simp only [step, Option.bind_some] at hr
  have main : ∀ z : Bool, (z = true → ∀ o ∈ post, ¬ Samples tbl ns nr o) →
      Covered h.maps (Swoll.Spec.Filter.scope ns) (BitVec.ofNat 32 sc.nr) z := by
    intro z hz
    have c4 := covered_add tbl q3 ns nr sc hl z
    exact covered_run tbl hT ⟨h1.next, j, ns, nr⟩ sc hl z post { h3 with maps := (Filter.step tbl h3.maps (.addSyscall (.int nr) ns {})).1 } _ R3
      ⟨i3.ns, i3.id, i3.nodup, i3.fresh⟩ s3 hc3 (fun o ho => hsane o (by simp [ho]))
      (fun o ho => hdel o (by simp [ho])) hstop hz c4 hr
  obtain ⟨v, g1, g2, g3, g4, _⟩ := covered_key (main false (by simp))
  refine ⟨_, v, by rw [ruleKey_eq, hl]; rfl, (Swoll.Lemmas.Filter.isFilterEnabled_iff _ _).1 g4,
    ⟨g1, (Swoll.Lemmas.Filter.isFilterEnabled_iff _ _).1 g3⟩, g2, ?_⟩
  intro hs
  have hcov := main true (fun _ => hs)
  obtain ⟨w, f1, _, _, _, f5⟩ := covered_key hcov
  rw [g1] at f1; injection f1 with f1; subst f1
  refine ⟨f5 rfl, ?_⟩
  intro tid
  have hpos : 0 < ns := (hsane (.push j ns nr) (by simp)).1
  rw [scope_sane hpos] at hcov
  exact covered_passes tbl hcov tid

/-- A trace and two containers of one pod sharing their pid namespace. -/
def specA : Spec := ⟨jobA, [], ["openat"]⟩
def c1 : Container := ⟨"pod", "web", 4026532000⟩
def c2 : Container := ⟨"pod", "sidecar", 4026532000⟩

/-- C16 violated: two containers share a pid namespace (as containers of one pod may); both
are started for the job, then one stops.  The other is still running and the job still
registered, but its calls are now dropped by the kernel. -/
theorem c16_violated :
    (jobStart demoTbl specA (fun _ => ({}, {})) c1 (start demoTbl, [])).bind (fun s1 =>
      (jobStart demoTbl specA (fun _ => ({}, {})) c2 s1).bind (fun s2 =>
      (jobStop demoTbl specA c1 s2).map fun s3 =>
        ((Filter.step demoTbl s2.1.maps (.callEvent 4026532000#32 1 257)).2,
         (Filter.step demoTbl s3.1.maps (.callEvent 4026532000#32 1 257)).2,
         listing (findJobList s3.1 4026532000 257)))) =
    some (true, false, [⟨jobA, 4026532000, 257⟩, ⟨jobA, 4026532000, 257⟩]) := by
  decide +kernel

/-- What a stop notification does (with known names): it takes out the kernel rules of the
specification's syscalls for the container's namespace, whoever else needs them, changes no
other rule, keeps every registration and marks the host as stopped. -/
theorem c16_stop_actual (tbl : Syscalls) (h : Hub) (hosts : GoMap String Bool) (s : Spec) (c : Container)
    (scs : List Syscall) (hcalls : s.calls.map (fun n => lookup tbl (.str n)) = scs.map some) :
    ∃ h', jobStop tbl s c (h, hosts) = some (h', removeContainer hosts c.pod c.name) ∧
      (∀ k, (∃ sc ∈ scs, ruleKey tbl c.pidns sc.nr = some k) → GoMap.get h'.maps.filter k = none) ∧
      (∀ k, (¬ ∃ sc ∈ scs, ruleKey tbl c.pidns sc.nr = some k) →
        GoMap.get h'.maps.filter k = GoMap.get h.maps.filter k) ∧
      h'.maps.config = h.maps.config ∧ h'.nsmap = h.nsmap ∧ h'.idmap = h.idmap := by
  have loop : ∀ (scs : List Syscall) (h : Hub), ∃ h', stopLoop tbl c.pidns h (scs.map some) = some h' ∧
      (∀ k, (∃ sc ∈ scs, ruleKey tbl c.pidns sc.nr = some k) ∨ GoMap.get h.maps.filter k = none →
        GoMap.get h'.maps.filter k = none) ∧
      (∀ k, (¬ ∃ sc ∈ scs, ruleKey tbl c.pidns sc.nr = some k) →
        GoMap.get h'.maps.filter k = GoMap.get h.maps.filter k) ∧
      h'.maps.config = h.maps.config ∧ h'.nsmap = h.nsmap ∧ h'.idmap = h.idmap := by
    intro scs
    induction scs with
    | nil => intro h; exact ⟨h, rfl, by simp, by simp, rfl, rfl, rfl⟩
    | cons sc scs ih =>
      intro h
      obtain ⟨h', e, a, b, c1, c2, c3⟩ := ih { h with maps := (removeSyscall tbl h.maps (.int sc.nr) c.pidns).1 }
      refine ⟨h', e, ?_, ?_, ?_, c2, c3⟩
      · intro k hk
        apply a
        show _ ∨ GoMap.get (removeSyscall tbl h.maps (.int sc.nr) c.pidns).1.filter k = none
        rw [get_removeSyscall]
        rcases hk with ⟨x, hx, hk⟩ | hk
        · rw [List.mem_cons] at hx
          rcases hx with rfl | hx
          · exact Or.inr (by rw [if_pos hk])
          · exact Or.inl ⟨x, hx, hk⟩
        · exact Or.inr (by rw [hk]; simp)
      · intro k hk
        rw [b k (fun ⟨x, hx, hh⟩ => hk ⟨x, by simp [hx], hh⟩)]
        show GoMap.get (removeSyscall tbl h.maps (.int sc.nr) c.pidns).1.filter k = _
        rw [get_removeSyscall, if_neg (fun hh => hk ⟨sc, by simp, hh⟩)]
      · rw [c1]; exact config_removeSyscall tbl h.maps c.pidns sc.nr
  obtain ⟨h', e, a, b, r⟩ := loop scs h
  refine ⟨h', ?_, fun k hk => a k (Or.inl hk), b, r⟩
  unfold jobStop
  rw [hcalls, e]

/-! ### C17 -/

/-- C17 violated, in every state: whenever a job with a positive rate has completed the start
of a syscall for a container, the kernel rule of the pair is unsampled. -/
theorem c17_violated (tbl : Syscalls) (h h' : Hub) (j : Job) (ns : Int) (sc : Syscall)
    (hl : lookup tbl (.int sc.nr) = some sc) (f1 : Faults)
    (hrun : runOps tbl h (callOps j ns sc f1 {}) = some (h', true)) :
    ∃ k v, ruleKey tbl ns sc.nr = some k ∧ GoMap.get h'.maps.filter k = some v ∧
      v.sampleRate = 0 ∧ v.action = factionAllow := by
  have last : ∀ (ops : List Op) (h h' : Hub), runOps tbl h (ops ++ [.filter (.addSyscall (.int sc.nr) ns {})]) = some (h', true) →
      ∃ h1 : Hub, h' = { h1 with maps := (Filter.step tbl h1.maps (.addSyscall (.int sc.nr) ns {})).1 } := by
    intro ops
    induction ops with
    | nil =>
      intro h h' hr
      simp only [List.nil_append, runOps, step] at hr
      split at hr
      · simp only [Option.some.injEq, Prod.mk.injEq, and_true] at hr
        exact ⟨h, hr.symm⟩
      · simp at hr
    | cons o os ih =>
      intro h h' hr
      rw [List.cons_append] at hr
      unfold runOps at hr
      cases hs : step tbl h o with
      | none => rw [hs] at hr; cases hr
      | some r =>
        obtain ⟨h1, b, out⟩ := r
        rw [hs] at hr
        cases b with
        | true => exact ih h1 h' (by simpa using hr)
        | false => simp at hr
  unfold callOps at hrun
  rw [← List.cons_append] at hrun
  obtain ⟨h1, rfl⟩ := last _ _ _ hrun
  refine ⟨_, ⟨0, 0, 0, 0⟩, by rw [ruleKey_eq, hl]; rfl, ?_, rfl, rfl⟩
  simp only [Filter.step, addSyscall, Swoll.Lemmas.Filter.newRule_sys, hl, Option.map_some, addRule,
    Swoll.Lemmas.Filter.normKey_sys]
  exact GoMap.get_set_same _ _ _

/-- C17 violated, concretely: a job asking for rate 100 starts on a container; the rule is
there, with rate 0. -/
theorem c17_violated_example :
    (jobStart demoTbl ⟨⟨1, "a", 100⟩, [], ["openat"]⟩ (fun _ => ({}, {})) c1 (start demoTbl, [])).map
      (fun s => GoMap.get s.1.maps.filter ⟨0xC002#16, 4026532000#32, 0, 257⟩) = some (some ⟨0, 0, 0, 0⟩) := by
  decide +kernel

/-! ### C18 -/

/-- C18: a container whose name is not in a non-empty host selector leaves the hub, the kernel
filter and the job's host list alone. -/
theorem c18_not_selected (tbl : Syscalls) (s : Spec) (faults : Nat → Faults × Faults) (c : Container)
    (st : Hub × GoMap String Bool) (hne : s.hosts ≠ []) (hn : c.name ∉ s.hosts) :
    jobStart tbl s faults c st = some st := by
  unfold jobStart hostMatch
  have h1 : s.hosts.length > 0 := List.length_pos_iff.2 hne
  have h2 : s.hosts.any (fun h => h == c.name) = false := by
    rw [List.any_eq_false]
    intro x hx
    simp only [beq_iff_eq]
    intro e; exact hn (e ▸ hx)
  simp [h1, h2]

/-- C18: a container that is selected (listed, or the selector is empty) gets one
registration per syscall of the specification, in order, for its pid namespace, when all names
are known and the kernel accepts the updates; the kernel then has an allowing rule for each of
these pairs and no other kernel rule has changed. -/
theorem c18_selected (tbl : Syscalls) (hT : TableOK tbl) (m : KMaps) (ops : List Op) (h : Hub)
    (hr : run tbl (Hub.init m) ops = some h) (hosts : GoMap String Bool) (s : Spec) (c : Container)
    (hsel : s.hosts = [] ∨ c.name ∈ s.hosts) (scs : List Syscall)
    (hcalls : s.calls.map (fun n => lookup tbl (.str n)) = scs.map some) :
    ∃ h' more, jobStart tbl s (fun _ => ({}, {})) c (h, hosts) = some (h', addContainer hosts c.pod c.name) ∧
      run tbl (Hub.init m) (ops ++ more) = some h' ∧
      registered (ops ++ more) = registered ops ++ scs.map (fun sc => ⟨s.job, c.pidns, sc.nr⟩) ∧
      (∀ sc ∈ scs, ∃ k v, ruleKey tbl c.pidns sc.nr = some k ∧ GoMap.get h'.maps.filter k = some v ∧
        v.action = factionAllow) ∧
      (∀ k, (∀ sc ∈ scs, ruleKey tbl c.pidns sc.nr ≠ some k) →
        GoMap.get h'.maps.filter k = GoMap.get h.maps.filter k) := by
  obtain ⟨R, hi, e⟩ := inv_reach tbl hr
  have hlk : ∀ sc ∈ scs, lookup tbl (.int sc.nr) = some sc := by
    intro sc hsc
    have : some sc ∈ s.calls.map (fun n => lookup tbl (.str n)) := by
      rw [hcalls]; exact List.mem_map.2 ⟨sc, hsc, rfl⟩
    obtain ⟨n, _, hn⟩ := List.mem_map.1 this
    exact (hT.1 _ _ hn).1
  obtain ⟨h', e1, e2⟩ := startLoop_ok tbl s.job c.pidns scs 0 h R hi hlk
  have hmatch : hostMatch s c.name = true := by
    unfold hostMatch
    rcases hsel with hx | hx
    · simp [hx]
    · split
      · rw [List.any_eq_true]; exact ⟨c.name, hx, by simp⟩
      · rfl
  refine ⟨h', startOps s.job c.pidns scs, ?_, ?_, ?_, ?_, ?_⟩
  · unfold jobStart
    rw [if_pos hmatch, hcalls, e1]
  · rw [run_append_eq tbl _ _ _ _ hr]; exact e2
  · unfold registered
    rw [List.foldl_append, regs_startOps]
  · intro sc hsc
    have hk : ∃ k, ruleKey tbl c.pidns sc.nr = some k := by
      rw [ruleKey_eq, hlk sc hsc]; exact ⟨_, rfl⟩
    obtain ⟨k, hk⟩ := hk
    exact ⟨k, _, hk, startOps_rule tbl s.job c.pidns k scs h h' hlk e2 (Or.inl ⟨sc, hsc, hk⟩), rfl⟩
  · intro k hk
    exact offKey_run tbl k _ h h' (offKey_startOps tbl k s.job c.pidns scs hk) e2

/-! ### C64 -/

/-- C64 violated: a specification with a syscall name the table does not know crashes the
process when a container is started (every name before it being known and accepted) and when
one is stopped. -/
theorem c64_violated (tbl : Syscalls) (s : Spec) (c : Container) (st : Hub × GoMap String Bool) (n : String)
    (rest : List String) (hcalls : s.calls = n :: rest) (hn : lookup tbl (.str n) = none)
    (hsel : s.hosts = [] ∨ c.name ∈ s.hosts) (faults : Nat → Faults × Faults) :
    jobStart tbl s faults c st = none ∧ jobStop tbl s c st = none := by
  have hmatch : hostMatch s c.name = true := by
    unfold hostMatch
    rcases hsel with hx | hx
    · simp [hx]
    · split
      · rw [List.any_eq_true]; exact ⟨c.name, hx, by simp⟩
      · rfl
  constructor
  · unfold jobStart
    rw [if_pos hmatch, hcalls, List.map_cons, hn]; rfl
  · unfold jobStop
    rw [hcalls, List.map_cons, hn]; rfl

/-- C64 (partial): with known names only, start and stop callbacks never crash, in any
reachable state, even when the kernel refuses updates.  Missing: unknown names. -/
theorem c64_known_partial (tbl : Syscalls) (m : KMaps) (ops : List Op) (h : Hub)
    (hr : run tbl (Hub.init m) ops = some h) (hosts : GoMap String Bool) (s : Spec) (c : Container)
    (hcalls : ∀ n ∈ s.calls, lookup tbl (.str n) ≠ none) (faults : Nat → Faults × Faults) :
    jobStart tbl s faults c (h, hosts) ≠ none ∧ jobStop tbl s c (h, hosts) ≠ none := by
  obtain ⟨R, hi, _⟩ := inv_reach tbl hr
  have hops : ∀ (j : Job) (ns : Int) (sc : Syscall) (f1 f2 : Faults) (h : Hub) (R : List Ctx), Inv h R →
      ∃ h' b R', runOps tbl h (callOps j ns sc f1 f2) = some (h', b) ∧ Inv h' R' := by
    intro j ns sc f1 f2 h R hi
    have hi1 := inv_push hi j ns sc.nr
    have hF : ∀ (h : Hub) (R : List Ctx) (x : KMaps), Inv h R → Inv { h with maps := x } R :=
      fun h R x hi => ⟨hi.ns, hi.id, hi.nodup, hi.fresh⟩
    unfold callOps
    have hlast : ∀ (h : Hub) (R : List Ctx), Inv h R → ∃ h' b R',
        runOps tbl h [.filter (.addSyscall (.int sc.nr) ns f2)] = some (h', b) ∧ Inv h' R' := by
      intro h R hi
      simp only [runOps, step]
      split
      · exact ⟨_, _, R, rfl, hF _ _ _ hi⟩
      · exact ⟨_, _, R, rfl, hF _ _ _ hi⟩
    by_cases hrr : j.rate > 0
    · rw [if_pos hrr]
      obtain ⟨h2, hs⟩ := swap_some tbl hi1 j.rate ns sc.nr
      obtain ⟨R2, hi2, _⟩ := inv_step tbl hi1 (op := .swap j.rate ns sc.nr) (b := true) (o := [])
        (h' := h2) (by simp [step, hs])
      simp only [List.cons_append, List.nil_append]
      unfold runOps
      simp only [step, if_true]
      unfold runOps
      simp only [step, hs, Option.map_some, if_true]
      unfold runOps
      simp only [step]
      split
      · exact hlast _ R2 (hF _ _ _ hi2)
      · exact ⟨_, _, R2, rfl, hF _ _ _ hi2⟩
    · rw [if_neg hrr]
      unfold runOps
      simp only [step, if_true, List.nil_append]
      exact hlast _ _ hi1
  have hstart : ∀ (cs : List (Option Syscall)) (i : Nat) (h : Hub) (R : List Ctx), Inv h R → (∀ x ∈ cs, x ≠ none) →
      startLoop tbl s.job c.pidns faults i h cs ≠ none := by
    intro cs
    induction cs with
    | nil => intro i h R _ _; simp [startLoop]
    | cons x xs ih =>
      intro i h R hi hx
      cases x with
      | none => exact absurd rfl (hx none (by simp))
      | some sc =>
        obtain ⟨h', b, R', e, hi'⟩ := hops s.job c.pidns sc (faults i).1 (faults i).2 h R hi
        unfold startLoop
        rw [e]
        dsimp only
        split
        · exact ih _ _ R' hi' (fun y hy => hx y (by simp [hy]))
        · simp
  have hstop : ∀ (cs : List (Option Syscall)) (h : Hub), (∀ x ∈ cs, x ≠ none) → stopLoop tbl c.pidns h cs ≠ none := by
    intro cs
    induction cs with
    | nil => intro h _; simp [stopLoop]
    | cons x xs ih =>
      intro h hx
      cases x with
      | none => exact absurd rfl (hx none (by simp))
      | some sc => unfold stopLoop; exact ih _ (fun y hy => hx y (by simp [hy]))
  have hall : ∀ x ∈ s.calls.map (fun n => lookup tbl (.str n)), x ≠ none := by
    intro x hx
    obtain ⟨n, hn, rfl⟩ := List.mem_map.1 hx
    exact hcalls n hn
  constructor
  · unfold jobStart
    split
    · have := hstart _ 0 h R hi hall
      split
      · rename_i hx; exact absurd hx this
      · simp
    · simp
  · unfold jobStop
    have := hstop _ h hall
    split
    · rename_i hx; exact absurd hx this
    · simp

/-! ### C19 -/

/-- What `MonitoredHosts` reports: with `all`, every host ever notified (started or stopped);
without, the hosts that were started and never stopped. -/
theorem c19_actual (ns : List Note) (k : String) :
    (k ∈ monitoredHosts (hostsAfter ns) true ↔ ∃ n ∈ ns, n.host = k) ∧
    (k ∈ monitoredHosts (hostsAfter ns) false ↔
      (∃ n ∈ ns, n.host = k) ∧ ∀ n ∈ ns, n.host = k → n.start = true) := by
  rw [mem_monitored, mem_monitored, hosts_get]
  constructor
  · constructor
    · rintro ⟨b, hb, _⟩
      split at hb
      · assumption
      · cases hb
    · intro h; rw [if_pos h]; exact ⟨_, rfl, Or.inl rfl⟩
  · constructor
    · rintro ⟨b, hb, hx⟩
      rcases hx with hx | rfl
      · cases hx
      · split at hb
        · rename_i hex
          refine ⟨hex, ?_⟩
          injection hb with hb
          rw [decide_eq_true_eq] at hb
          intro n hn hk
          cases hs : n.start with
          | true => rfl
          | false => exact absurd ⟨n, hn, hs, hk⟩ hb
        · cases hb
    · rintro ⟨hex, hall⟩
      rw [if_pos hex]
      refine ⟨true, ?_, Or.inr rfl⟩
      congr 1
      rw [decide_eq_true_eq]
      rintro ⟨n, hn, hs, hk⟩
      rw [hall n hn hk] at hs; cases hs

/-- C19 (partial): when no host is started again after a stop, `MonitoredHosts(false)` lists
exactly the hosts whose last notification was a start; and when every stop follows a start,
`MonitoredHosts(true)` lists exactly the hosts that ever started.  Missing: restarted hosts. -/
theorem c19_partial (ns : List Note) (k : String)
    (hno : ∀ pre n post, ns = pre ++ n :: post → n.host = k → n.start = true →
      ∀ n' ∈ pre, n'.host = k → n'.start = true)
    (hfirst : ∀ pre n post, ns = pre ++ n :: post → n.host = k → n.start = false →
      ∃ n' ∈ pre, n'.host = k ∧ n'.start = true) :
    (k ∈ monitoredHosts (hostsAfter ns) false ↔
      ∃ pre n post, ns = pre ++ n :: post ∧ n.host = k ∧ n.start = true ∧ ∀ n' ∈ post, n'.host ≠ k) ∧
    (k ∈ monitoredHosts (hostsAfter ns) true ↔ ∃ n ∈ ns, n.host = k ∧ n.start = true) := by
  obtain ⟨h1, h2⟩ := c19_actual ns k
  rw [h1, h2]
  constructor
  · constructor
    · rintro ⟨hex, hall⟩
      -- last notification of k
      have : ∀ ns : List Note, (∃ n ∈ ns, n.host = k) → ∃ pre n post, ns = pre ++ n :: post ∧ n.host = k ∧
          ∀ n' ∈ post, n'.host ≠ k := by
        intro ns
        induction ns with
        | nil => rintro ⟨n, hn, _⟩; simp at hn
        | cons a as ih =>
          intro hex
          by_cases hin : ∃ n ∈ as, n.host = k
          · obtain ⟨p, n, q, e, a1, a2⟩ := ih hin
            exact ⟨a :: p, n, q, by rw [e]; rfl, a1, a2⟩
          · obtain ⟨n, hn, hk⟩ := hex
            rw [List.mem_cons] at hn
            rcases hn with rfl | hn
            · exact ⟨[], n, as, rfl, hk, fun n' hn' he => hin ⟨n', hn', he⟩⟩
            · exact absurd ⟨n, hn, hk⟩ hin
      obtain ⟨p, n, q, e, a1, a2⟩ := this ns hex
      exact ⟨p, n, q, e, a1, hall n (by rw [e]; simp) a1, a2⟩
    · rintro ⟨p, n, q, e, a1, a2, a3⟩
      refine ⟨⟨n, by rw [e]; simp, a1⟩, ?_⟩
      intro x hx hk
      rw [e, List.mem_append, List.mem_cons] at hx
      rcases hx with hx | rfl | hx
      · exact hno p n q e a1 a2 x hx hk
      · exact a2
      · exact absurd hk (a3 x hx)
  · constructor
    · rintro ⟨n, hn, hk⟩
      cases hs : n.start with
      | true => exact ⟨n, hn, hk, hs⟩
      | false =>
        obtain ⟨p, q, e⟩ := List.append_of_mem hn
        obtain ⟨n', hn', hk', hs'⟩ := hfirst p n q e hk hs
        exact ⟨n', by rw [e]; simp [hn'], hk', hs'⟩
    · rintro ⟨n, hn, hk, _⟩; exact ⟨n, hn, hk⟩

/-- Host names tell containers apart as long as container names have no dot. -/
theorem c19_host_injective (n n' : Note) (h : '.' ∉ n.name.toList) (h' : '.' ∉ n'.name.toList)
    (he : n.host = n'.host) : n.name = n'.name ∧ n.pod = n'.pod := by
  have key : ∀ (a b c d : List Char), '.' ∉ a → '.' ∉ c → a ++ '.' :: b = c ++ '.' :: d → a = c ∧ b = d := by
    intro a
    induction a with
    | nil =>
      intro b c d _ hc he
      cases c with
      | nil => simp at he; exact ⟨rfl, he⟩
      | cons x xs => simp at he; exact absurd (by rw [← he.1]; simp) hc
    | cons y ys ih =>
      intro b c d ha hc he
      cases c with
      | nil => simp at he; exact absurd (by rw [he.1]; simp) ha
      | cons x xs =>
        simp at he ha hc
        obtain ⟨e1, e2⟩ := ih b xs d ha.2 hc.2 he.2
        exact ⟨by rw [he.1, e1], e2⟩
  have h1 := congrArg String.toList he
  unfold Note.host at h1
  simp only [String.toList_append] at h1
  have h2 : n.name.toList ++ '.' :: n.pod.toList = n'.name.toList ++ '.' :: n'.pod.toList := by
    simpa [List.append_assoc] using h1
  obtain ⟨e1, e2⟩ := key _ _ _ _ h h' h2
  exact ⟨String.toList_injective e1, String.toList_injective e2⟩

/-- C19 violated: a container that stops and starts again is no longer reported as monitored;
a container that only stopped is reported among those that matched; and names with dots make
two containers one host. -/
theorem c19_violated :
    monitoredHosts (hostsAfter [⟨true, "pod", "web"⟩, ⟨false, "pod", "web"⟩, ⟨true, "pod", "web"⟩]) false = [] ∧
    monitoredHosts (hostsAfter [⟨false, "pod", "other"⟩]) true = ["other.pod"] ∧
    (⟨true, "b.c", "a"⟩ : Note).host = (⟨true, "c", "a.b"⟩ : Note).host := by
  decide +kernel

/-! ### The hypotheses are met -/

/-- A history with two jobs sharing a pair, a deletion and an event. -/
example : ∃ h, run demoTbl (start demoTbl) [.push jobA 7000 257, .push jobB 7000 257, .push jobB 7000 0,
    .filter (.addSyscall (.int 257) 7000 {}), .event ⟨7000, 257, true⟩, .delete "a"] = some h ∧
    listing (findJobList h 7000 257) = [⟨jobB, 7000, 257⟩] ∧ findJobListByID h "a" = none ∧
    GoMap.get h.maps.filter ⟨0xC002#16, 7000, 0, 257⟩ ≠ none := by
  refine ⟨_, rfl, ?_⟩
  decide +kernel

/-- Deleting the last job of a pair does remove its rule. -/
example : ∃ h, run demoTbl (start demoTbl) [.push jobA 7000 257, .filter (.addSyscall (.int 257) 7000 {}), .delete "a"] = some h ∧
    GoMap.get h.maps.filter ⟨0xC002#16, 7000, 0, 257⟩ = none := by
  refine ⟨_, rfl, ?_⟩
  decide +kernel

theorem demo_ok : TableOK demoTbl := by
  constructor
  · intro k s h
    have hs : s = ⟨257, "sys_openat", "FileSystem", "Files"⟩ ∨ s = ⟨0, "sys_read", "FileSystem", "IO"⟩ := by
      have hm : ∀ e ∈ demoTbl.nr, e.2 = ⟨257, "sys_openat", "FileSystem", "Files"⟩ ∨ e.2 = ⟨0, "sys_read", "FileSystem", "IO"⟩ := by
        decide
      have hm' : ∀ e ∈ demoTbl.name, e.2 = ⟨257, "sys_openat", "FileSystem", "Files"⟩ ∨ e.2 = ⟨0, "sys_read", "FileSystem", "IO"⟩ := by
        decide
      cases k with
      | str v => exact hm' _ (GoMap.mem_of_get h)
      | u32 n => exact hm _ (GoMap.mem_of_get h)
      | int n => exact hm _ (GoMap.mem_of_get h)
      | other => cases h
    rcases hs with rfl | rfl <;> decide
  · intro n s h
    have hm : ∀ e ∈ demoTbl.nr, (e.2.nr : Int) = e.1 := by decide
    exact hm _ (GoMap.mem_of_get h)

/-- The hypotheses of the coverage theorem are met by a job start interleaved with another. -/
example : (∃ h, run demoTbl (start demoTbl) ([.push jobB 7000 257] ++ .push jobA 7000 257 ::
      ([.swap 5 7000 257, .delete "b"] ++ .filter (.addSyscall (.int 257) 7000 {}) ::
       [.filter (.callEvent 7000 1 257), .filter (.removeSyscall (.int 0) 7000)])) = some h) ∧
    SaneOp (.push jobA 7000 257) ∧ ¬ Stops demoTbl 7000 257 (.filter (.removeSyscall (.int 0) 7000)) := by
  refine ⟨⟨_, rfl⟩, by simp [SaneOp, SanePair], ?_⟩
  rintro ⟨s, k', h1, h2, h3⟩
  rw [← h3] at h2
  have : s = ⟨0, "sys_read", "FileSystem", "IO"⟩ := by
    have e : lookup demoTbl (.int 0) = some ⟨0, "sys_read", "FileSystem", "IO"⟩ := by decide
    rw [e] at h1; injection h1 with h1; exact h1.symm
  subst this
  revert h2; decide

/-- A pair with one sampled job: hypotheses of `c14_lowest_partial`. -/
example : IsLowest (ofPair (registered [.push ⟨1, "a", 3⟩ 7000 257, .push ⟨2, "b", 5⟩ 7000 257]) 7000 257)
    ⟨⟨1, "a", 3⟩, 7000, 257⟩ ∧
    received [.push ⟨1, "a", 3⟩ 7000 257, .push ⟨2, "b", 5⟩ 7000 257] (List.replicate 7 ⟨7000, 257, true⟩) "a"
      = some [3, 6] := by
  refine ⟨⟨[], [⟨⟨2, "b", 5⟩, 7000, 257⟩], by decide, by simp, by simp⟩, by decide +kernel⟩

/-- Known names, host selected: hypotheses of `c18_selected` and `c64_known_partial`. -/
example : (["openat", "read"].map (fun n => lookup demoTbl (.str n))) =
    [(⟨257, "sys_openat", "FileSystem", "Files"⟩ : Syscall), ⟨0, "sys_read", "FileSystem", "IO"⟩].map some ∧
    lookup demoTbl (.str "frobnicate") = none := by decide +kernel

end Swoll.Props.Hub
