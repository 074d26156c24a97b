import Verif.Spec.Names
import Verif.Spec.Controller
import Verif.Lemmas.JobArgs
/-
C152: every trace that is accepted gets its job.
-/
namespace Swoll.Props.Names
open Swoll Swoll.Names Swoll.Spec.Names
open Swoll.JobArgs (Str)

/-! ### Names -/

theorem lower_iff {c : Char} : lower c = true ↔ Small c := by
  unfold lower Small
  simp only [Bool.or_eq_true, Bool.and_eq_true, decide_eq_true_eq]

theorem part_iff {s : Str} : part s = true ↔ Word s := by
  unfold part Word
  simp only [Bool.and_eq_true, List.all_eq_true, Bool.or_eq_true, beq_iff_eq, lower_iff, Option.any_eq_true]
  constructor
  · rintro ⟨⟨⟨c, h1, h2⟩, d, h3, h4⟩, h5⟩
    exact ⟨c, d, h1, h3, h2, h4, h5⟩
  · rintro ⟨c, d, h1, h3, h2, h4, h5⟩
    exact ⟨⟨⟨c, h1, h2⟩, d, h3, h4⟩, h5⟩

theorem word_no_dot {s : Str} (h : Word s) : '.' ∉ s := by
  intro hm
  obtain ⟨-, -, -, -, -, -, h⟩ := h
  rcases h _ hm with h | h
  · unfold Small at h
    revert h
    decide
  · revert h
    decide

/-- The API server's names are these. -/
theorem subdomain_iff {s : Str} : isSubdomain s = true ↔ Name s := by
  have key : ∀ s : Str, (JobArgs.split '.' s).all part = true ↔ Dotted s := by
    intro s
    constructor
    · intro h
      have aux : ∀ (fs : List Str), fs ≠ [] → (∀ f ∈ fs, part f = true) → Dotted (JobArgs.join '.' fs) := by
        intro fs
        induction fs with
        | nil => exact fun h => absurd rfl h
        | cons f fs ih =>
          intro _ hf
          cases fs with
          | nil => exact .word (part_iff.1 (hf f (.head _)))
          | cons g fs =>
            exact .more (part_iff.1 (hf f (.head _))) (ih (by simp) fun x hx => hf x (List.mem_cons_of_mem _ hx))
      have := aux _ (Lemmas.JobArgs.split_ne_nil '.' s) (List.all_eq_true.1 h)
      rwa [join_split] at this
    · intro h
      induction h with
      | word h =>
        rw [Lemmas.JobArgs.split_of_not_mem (word_no_dot h), List.all_cons, part_iff.2 h]
        rfl
      | more h _ ih =>
        rw [Lemmas.JobArgs.split_append (word_no_dot h), List.all_cons, part_iff.2 h, ih]
        rfl
  unfold isSubdomain Name
  rw [Bool.and_eq_true, key, decide_eq_true_eq]
  exact And.comm
where
  join_split {s : Str} : JobArgs.join '.' (JobArgs.split '.' s) = s := by
    induction s with
    | nil => rfl
    | cons c s ih =>
      rw [JobArgs.split]
      by_cases hc : c = '.'
      · rw [if_pos hc]
        have hne := Lemmas.JobArgs.split_ne_nil '.' s
        cases hs : JobArgs.split '.' s with
        | nil => exact absurd hs hne
        | cons f fs =>
          rw [hs] at ih
          rw [JobArgs.join, ih, hc]
          rfl
      · rw [if_neg hc]
        cases hs : JobArgs.split '.' s with
        | nil => exact absurd hs (Lemmas.JobArgs.split_ne_nil '.' s)
        | cons f fs =>
          rw [hs] at ih
          cases fs with
          | nil =>
            show c :: f = _
            rw [← ih]
            rfl
          | cons g fs =>
            show (c :: f) ++ '.' :: JobArgs.join '.' (g :: fs) = _
            rw [← ih]
            rfl

theorem dotted_word {s : Str} (h : Dotted s) (hd : '.' ∉ s) : Word s := by
  cases h with
  | word h => exact h
  | more _ _ => exact absurd (List.mem_append_right _ (.head _)) hd

theorem value_of_word {s : Str} (h : Word s) (hl : s.length ≤ 63) : isValue s = true := by
  obtain ⟨c, d, h1, h2, h3, h4, h5⟩ := h
  unfold isValue
  rw [Bool.or_eq_true]
  refine .inr ?_
  rw [h1, h2]
  simp only [Bool.and_eq_true, decide_eq_true_eq, Option.any_some, List.all_eq_true, Bool.or_eq_true, beq_iff_eq]
  refine ⟨⟨⟨hl, ?_⟩, ?_⟩, ?_⟩
  · unfold letter; rw [lower_iff.2 h3]; rfl
  · unfold letter; rw [lower_iff.2 h4]; rfl
  · intro x hx
    rcases h5 x hx with h | h
    · exact .inl (.inl (.inl (by unfold letter; rw [lower_iff.2 h]; rfl)))
    · exact .inl (.inl (.inr h))

theorem small_s : Small 's' := by unfold Small; decide
theorem small_w : Small 'w' := by unfold Small; decide
theorem small_a : Small 'a' := by unfold Small; decide

/-- A text that begins with `sw-`, ends with a letter and is made of letters and dashes. -/
theorem word_of {t : Str} {d : Char} (hl : t.getLast? = some d) (hd : Small d) (ht : ∀ x ∈ t, Small x ∨ x = '-') :
    Word ("sw-".toList ++ t) := by
  refine ⟨'s', d, rfl, ?_, small_s, hd, ?_⟩
  · rw [List.getLast?_append, hl]
    rfl
  · intro x hx
    rcases List.mem_append.1 hx with hx | hx
    · rw [show "sw-".toList = ['s', 'w', '-'] from rfl] at hx
      simp only [List.mem_cons, List.not_mem_nil, or_false] at hx
      rcases hx with rfl | rfl | rfl
      · exact .inl small_s
      · exact .inl small_w
      · exact .inr rfl
    · exact ht x hx

theorem sub_of_word {s : Str} (h : Word s) (hl : s.length ≤ 63) : isSubdomain s = true :=
  subdomain_iff.2 ⟨.word h, by omega⟩

/-- A name that does not fit: no random letters help. -/
theorem refused {name : Str} (h : '.' ∈ name ∨ 60 < name.length) (random : Str) : create (jobOf name) random = none := by
  unfold create
  refine if_neg fun hc => ?_
  simp only [Bool.and_eq_true] at hc
  obtain ⟨⟨⟨-, hl⟩, -⟩, -⟩ := hc
  unfold isLabel at hl
  rw [Bool.and_eq_true, decide_eq_true_eq] at hl
  rcases h with hm | hm
  · exact word_no_dot (part_iff.1 hl.2) (List.mem_append_right _ hm)
  · have : (jobOf name).container.length = 3 + name.length := by
      unfold jobOf
      rw [List.length_append]
      rfl
    omega

/-- C152 exactly: the job of a trace is accepted just if the trace's name has at most 60 characters and no dot. -/
theorem c152_accepted (name random : Str) (hn : Name name) (hr : random.length = 5 ∧ ∀ c ∈ random, Small c) :
    (create (jobOf name) random).isSome ↔ name.length ≤ 60 ∧ '.' ∉ name := by
  constructor
  · intro h
    refine ⟨Nat.le_of_not_lt fun hl => ?_, fun hm => ?_⟩
    · rw [refused (.inr hl)] at h
      cases h
    · rw [refused (.inl hm)] at h
      cases h
  · rintro ⟨hlen, hdot⟩
    obtain ⟨c, d, h1, h2, h3, h4, h5⟩ := dotted_word hn.1 hdot
    have hw : Word name := ⟨c, d, h1, h2, h3, h4, h5⟩
    have e1 : isLabel (jobOf name).container = true := by
      unfold isLabel
      rw [Bool.and_eq_true, decide_eq_true_eq]
      refine ⟨?_, part_iff.2 (word_of h2 h4 h5)⟩
      show ("sw-".toList ++ name).length ≤ 63
      rw [List.length_append]
      have : "sw-".toList.length = 3 := rfl
      omega
    have e2 : isValue (jobOf name).label = true := value_of_word hw (by show name.length ≤ 63; omega)
    have hbase : ∀ x ∈ name ++ ['-'], Small x ∨ x = '-' := by
      intro x hx
      rcases List.mem_append.1 hx with hx | hx
      · exact h5 x hx
      · exact .inr (List.mem_singleton.1 hx)
    have hg : (jobOf name).generateName = "sw-".toList ++ (name ++ ['-']) := by
      unfold jobOf
      rw [List.append_assoc]
    have hgl : (jobOf name).generateName.length = name.length + 4 := by
      rw [hg, List.length_append, List.length_append]
      have : "sw-".toList.length = 3 := rfl
      have : ['-'].length = 1 := rfl
      omega
    have e3 : isSubdomain (mask (jobOf name).generateName) = true := by
      have hm : mask (jobOf name).generateName = "sw-".toList ++ (name.dropLast ++ ['a']) := by
        unfold mask
        rw [if_pos (by rw [hg, ← List.append_assoc, List.getLast?_concat]), hgl, hg, ← List.append_assoc,
          List.take_append_of_le_length (by rw [List.length_append]; have : "sw-".toList.length = 3 := rfl; omega),
          List.take_append]
        have : "sw-".toList.length = 3 := rfl
        have hpos : 0 < name.length := by
          cases name with
          | nil => cases h1
          | cons _ _ => exact Nat.succ_pos _
        rw [this, List.take_of_length_le (by rw [this]; omega), List.append_assoc, List.dropLast_eq_take]
        rfl
      rw [hm]
      refine sub_of_word (word_of List.getLast?_concat small_a ?_) ?_
      · intro x hx
        rcases List.mem_append.1 hx with hx | hx
        · exact h5 x (List.dropLast_subset _ hx)
        · exact .inl (by rw [List.mem_singleton.1 hx]; exact small_a)
      · rw [List.length_append, List.length_append, List.length_dropLast]
        have : "sw-".toList.length = 3 := rfl
        have : ['a'].length = 1 := rfl
        omega
    have hgen : Word (generate (jobOf name).generateName random) ∧ (generate (jobOf name).generateName random).length ≤ 63 := by
      unfold generate
      have hrn : random ≠ [] := by
        intro h0
        rw [h0] at hr
        exact absurd hr.1 (by decide)
      obtain ⟨z, hz⟩ : ∃ z, random.getLast? = some z := ⟨_, List.getLast?_eq_some_getLast hrn⟩
      have ht : (jobOf name).generateName.take 58 ++ random = "sw-".toList ++ ((name ++ ['-']).take 55 ++ random) := by
        rw [hg, List.take_append]
        have : "sw-".toList.length = 3 := rfl
        rw [this, List.take_of_length_le (by rw [this]; omega), List.append_assoc]
      constructor
      · rw [ht]
        refine word_of (d := z) ?_ (hr.2 z (List.mem_of_getLast? hz)) ?_
        · rw [List.getLast?_append, hz]
          rfl
        · intro x hx
          rcases List.mem_append.1 hx with hx | hx
          · exact hbase x (List.mem_of_mem_take hx)
          · exact .inl (hr.2 x hx)
      · rw [List.length_append, List.length_take, hr.1]
        omega
    unfold create
    rw [if_pos]
    · rfl
    · rw [e1, e2, e3, sub_of_word hgen.1 hgen.2, value_of_word hgen.1 hgen.2]
      rfl

example : Name "pods-1".toList ∧ ("x7k2p".toList.length = 5 ∧ ∀ c ∈ "x7k2p".toList, Small c) :=
  ⟨subdomain_iff.1 (by decide +kernel), rfl, fun c hc => lower_iff.1 ((by decide +kernel : ∀ c ∈ "x7k2p".toList, lower c = true) c hc)⟩

example : create (jobOf "pods-1".toList) "x7k2p".toList = some "sw-pods-1-x7k2p".toList := by decide +kernel

/-! ### The controller -/

/-- Nothing disturbs this run of the controller, and it sees the latest version. -/
def Calm (s : Controller.Sched) : Prop :=
  s.envGet = [] ∧ s.view = some 0 ∧ s.envCreate = [] ∧ s.fCreate = .ok ∧ s.envUpdate = [] ∧ s.fUpdate = .ok

/-- C152 for the others: if the API server is asked and nothing disturbs, the job is there after two runs. -/
theorem c152_created_partial (d : Int) (sc : List String) (o : Bool) (jobs : List String) (s₁ s₂ : Controller.Sched)
    (h₁ : Calm s₁) (h₂ : Calm s₂) (hn : s₂.name ∉ jobs) :
    (Controller.run (Controller.init (Controller.fresh d sc o) jobs) [s₁, s₂]).created = [s₂.name] ∧
      ∃ t, (Controller.run (Controller.init (Controller.fresh d sc o) jobs) [s₁, s₂]).trace = some t ∧
        t.state = .running ∧ t.jobID = s₂.name := by
  obtain ⟨a1, a2, a3, a4, a5, a6⟩ := h₁
  obtain ⟨b1, b2, b3, b4, b5, b6⟩ := h₂
  simp only [Controller.run, List.foldl, Controller.reconcile, Controller.envs, a1, a2, b1, b2, Controller.init, Controller.fresh,
    List.getElem?_cons_zero, Controller.onDelete, Controller.onState, a5, a6, Controller.update, Controller.store, b3, b4, b5, b6,
    Controller.create, Controller.withSyscalls, Controller.asRunning]
  by_cases he : sc = [] <;> simp [he, hn]

example : ∃ s : Controller.Sched, Calm s ∧ s.name ∉ ["sw-x"] :=
  ⟨⟨[], some 0, [], .ok, [], .ok, [], .ok, "pods-1-x7k2p", [], .ok, 0⟩, ⟨rfl, rfl, rfl, rfl, rfl, rfl⟩, by decide⟩

/-- Nothing has come of the trace. -/
def Early (t : Controller.Trace) : Prop := (t.state = .unknown ∨ t.state = .pending) ∧ t.jobID = ""

structure Idle (w : Controller.World) : Prop where
  created : w.created = []
  seen : ∀ t ∈ w.seen, Early t
  now : ∀ t, w.trace = some t → Early t

theorem idle_store {w : Controller.World} {t : Controller.Trace} (h : Idle w) (ht : Early t) : Idle (Controller.store w t) := by
  unfold Controller.store
  have hs : ∀ u ∈ t :: w.seen, Early u := fun u hu => by
    rcases List.mem_cons.1 hu with rfl | hu
    · exact ht
    · exact h.seen u hu
  split
  · exact ⟨h.created, hs, fun u hu => nomatch hu⟩
  · exact ⟨h.created, hs, fun u hu => Option.some.inj hu ▸ ht⟩

theorem idle_env {w : Controller.World} (h : Idle w) (e : Controller.Env) : Idle (Controller.env w e) := by
  cases e with
  | jobGone n => exact ⟨h.created, h.seen, h.now⟩
  | delete =>
    unfold Controller.env
    cases ht : w.trace with
    | none => exact h
    | some t => exact idle_store h (h.now t ht)
  | edit d s =>
    unfold Controller.env
    cases ht : w.trace with
    | none => exact h
    | some t => exact idle_store h (h.now t ht)
  | others b =>
    unfold Controller.env
    cases ht : w.trace with
    | none => exact h
    | some t => exact idle_store h (h.now t ht)

theorem idle_envs {w : Controller.World} (h : Idle w) (es : List Controller.Env) : Idle (Controller.envs w es) := by
  unfold Controller.envs
  induction es generalizing w with
  | nil => exact h
  | cons e es ih => exact ih (idle_env h e)

theorem idle_update {w : Controller.World} {f : Controller.Fault} {t : Controller.Trace} (h : Idle w) (ht : Early t) :
    Idle (Controller.update w f t).1 ∧ ∀ u, (Controller.update w f t).2 = some u → Early u := by
  unfold Controller.update
  split
  · exact ⟨h, fun u hu => nomatch hu⟩
  · exact ⟨h, fun u hu => nomatch hu⟩
  · split
    · exact ⟨h, fun u hu => nomatch hu⟩
    · split
      · exact ⟨h, fun u hu => nomatch hu⟩
      · refine ⟨idle_store h ht, fun u hu => ?_⟩
        dsimp only at hu
        split at hu
        · cases hu
        · exact Option.some.inj hu ▸ ht

theorem idle_reconcile {w : Controller.World} (h : Idle w) (s : Controller.Sched) (hs : s.fCreate = .lost) :
    Idle (Controller.reconcile w s).1 := by
  unfold Controller.reconcile
  dsimp only
  have h0 := idle_envs h s.envGet
  cases s.view with
  | none => exact h0
  | some k =>
    dsimp only
    cases hk : (Controller.envs w s.envGet).seen[k]? with
    | none => exact h0
    | some t =>
      dsimp only
      have ht := h0.seen t (List.mem_of_getElem? hk)
      have hd : Idle (Controller.onDelete (Controller.envs w s.envGet) s t).1 ∧
          ∀ u, (Controller.onDelete (Controller.envs w s.envGet) s t).2 = .inr u → Early u := by
        unfold Controller.onDelete
        split
        · dsimp only
          rw [if_neg (fun hne => hne ht.2)]
          have hu := idle_update (f := s.fUpdate₁) (t := { t with finalizer := false }) (idle_envs h0 s.envUpdate₁) ht
          split
          · next heq => rw [heq] at hu; exact ⟨hu.1, fun u hh => nomatch hh⟩
          · next heq => rw [heq] at hu; exact ⟨hu.1, fun u hh => hu.2 u (by rw [Sum.inr.inj hh])⟩
        · exact ⟨h0, fun u hu => Sum.inr.inj hu ▸ ht⟩
      split
      · next heq => rw [heq] at hd; exact hd.1
      · next w' u heq =>
        rw [heq] at hd
        obtain ⟨hw, hu⟩ := hd
        have hu := hu u rfl
        unfold Controller.onState
        dsimp only
        split
        · have hx := idle_update (f := s.fUpdate) (t := { u with finalizer := true, state := .pending })
            (idle_envs hw s.envUpdate) ⟨.inr rfl, hu.2⟩
          split
          · next heq => rw [heq] at hx; exact hx.1
          · next heq => rw [heq] at hx; exact hx.1
        · have : Controller.create (Controller.envs w' s.envCreate) s.fCreate s.name = (Controller.envs w' s.envCreate, false) := by
            unfold Controller.create
            rw [if_pos (.inl hs)]
          rw [this]
          exact idle_envs hw s.envCreate
        · next hr =>
          rcases hu.1 with h1 | h1 <;> rw [h1] at hr <;> cases hr
        · exact hw

/-- C152 fails: a trace whose name has a dot in it, or more than 60 characters, is accepted by the API server, but however
often the controller looks at it, in whatever circumstances, it has no job, and is never more than pending. -/
theorem c152_stuck_violated (name : Str) (random : Controller.Sched → Str) (hn : '.' ∈ name ∨ 60 < name.length)
    (d : Int) (sc : List String) (o : Bool) (jobs : List String) (ss : List Controller.Sched)
    (api : ∀ s ∈ ss, create (jobOf name) (random s) = none → s.fCreate = .lost) :
    (Controller.run (Controller.init (Controller.fresh d sc o) jobs) ss).created = [] ∧
      ∀ t ∈ (Controller.run (Controller.init (Controller.fresh d sc o) jobs) ss).seen, t.state = .unknown ∨ t.state = .pending := by
  have key : ∀ (w : Controller.World), Idle w → Idle (Controller.run w ss) := by
    unfold Controller.run
    induction ss with
    | nil => exact fun w h => h
    | cons s ss ih =>
      exact fun w h => ih (fun x hx => api x (List.mem_cons_of_mem _ hx)) _ (idle_reconcile h s (api s (.head _) (refused hn _)))
  have h := key (Controller.init (Controller.fresh d sc o) jobs) ⟨rfl, fun t ht => by rw [List.mem_singleton.1 ht]; exact ⟨.inl rfl, rfl⟩,
    fun t ht => by rw [← Option.some.inj ht]; exact ⟨.inl rfl, rfl⟩⟩
  exact ⟨h.created, fun t ht => (h.seen t ht).1⟩

/-- There are such names. -/
theorem c152_names_violated :
    (Name "nginx.prod".toList ∧ ∀ r, create (jobOf "nginx.prod".toList) r = none) ∧
    (Name (List.replicate 61 'a') ∧ ∀ r, create (jobOf (List.replicate 61 'a')) r = none) :=
  ⟨⟨subdomain_iff.1 (by decide +kernel), refused (.inl (by decide))⟩,
   ⟨subdomain_iff.1 (by decide +kernel), refused (.inr (by decide))⟩⟩

end Swoll.Props.Names
