import Verif.Spec.Rule
import Verif.Props.Filter
import Verif.Util.ListX
/-
C131: a rule decides the calls it is about.
-/
namespace Swoll.Props.Rule
open Swoll Swoll.Syscalls Swoll.Filter Swoll.Spec.Filter Swoll.Spec.Rule Swoll.Lemmas.Filter

/-! ### Rules and their options -/

/-- The flags. -/
def fl (s m c n p : Bool) : BitVec 16 :=
  (if s then 2#16 else 0) ||| (if m then 4#16 else 0) ||| (if c then 0x8000#16 else 0) ||| (if n then 0x4000#16 else 0) |||
    (if p then 0x2000#16 else 0)

theorem fl_s (s m c n p : Bool) : fl s m c n p ||| fmodeSyscall = fl true m c n p := by decide +revert
theorem fl_m (s m c n p : Bool) : fl s m c n p ||| fmodeMetrics = fl s true c n p := by decide +revert
theorem fl_c (s m c n p : Bool) : fl s m c n p ||| ftypeSyscall = fl s m true n p := by decide +revert
theorem fl_n (s m c n p : Bool) : fl s m c n p ||| ftypePidNS = fl s m c true p := by decide +revert
theorem fl_p (s m c n p : Bool) : fl s m c n p ||| ftypePid = fl s m c n true := by decide +revert

theorem last_snoc {α β : Type} (f : α → Option β) (l : List α) (a : α) :
    last f (l ++ [a]) = (f a).or (last f l) := by
  unfold last
  rw [List.reverse_append, List.reverse_singleton, List.singleton_append, List.findSome?_cons]
  cases f a <;> rfl

/-- Whether there is an option for the mode. -/
def has (metrics : Bool) (opts : List Opt) : Bool := (last (fun | .mode b => if b = metrics then some () else none | _ => none) opts).isSome

theorem has_iff (b : Bool) : ∀ opts : List Opt, has b opts = true ↔ .mode b ∈ opts := by
  intro opts
  unfold has last
  rw [List.findSome?_isSome_iff]
  constructor
  · rintro ⟨o, ho, h⟩
    cases o with
    | mode c =>
      by_cases hc : c = b
      · subst hc; exact List.mem_reverse.1 ho
      · simp [hc] at h
    | _ => simp at h
  · intro h
    exact ⟨_, List.mem_reverse.2 h, by simp⟩

/-- The rule that options make. -/
def made (tbl : Syscalls) (opts : List Opt) : Rule :=
  { key := ⟨fl (has false opts) (has true opts) (callOf tbl opts).isSome (nsOf opts).isSome (pidOf opts).isSome,
      (nsOf opts).getD 0, (pidOf opts).getD 0, (callOf tbl opts).getD 0⟩
    val := ⟨(rateOf opts).setWidth 32, 0, 0, actionOf opts⟩ }

theorem build_eq (tbl : Syscalls) (opts : List Opt) {r : Rule} (h : build tbl opts = some r) : r = made tbl opts := by
  induction opts using ListX.snoc_induction generalizing r with
  | h0 =>
    injection h with h
    rw [← h]
    show Rule.zero = ⟨⟨fl false false false false false, 0, 0, 0⟩, ⟨0, 0, 0, 0⟩⟩
    rw [show fl false false false false false = 0 by decide]
    rfl
  | h1 opts o ih =>
    unfold build newFilterRule at h ih
    rw [List.map_append, List.foldlM_append] at h
    cases hb : (opts.map (Opt.fn tbl)).foldlM (fun r o => o r) Rule.zero with
    | none => rw [hb] at h; cases h
    | some q =>
      rw [hb] at h
      have hq := ih hb
      subst hq
      simp only [List.map_cons, List.map_nil, List.foldlM_cons, List.foldlM_nil, Option.bind_eq_bind, Option.bind_some,
        Option.pure_def] at h
      obtain ⟨r', h, h'⟩ := Option.bind_eq_some_iff.1 h
      injection h' with h'
      subst h'
      cases o with
      | mode b =>
        cases b with
        | true =>
          injection h with h
          rw [← h]
          simp only [made, fl_m]
          simp only [has, callOf, nsOf, pidOf, actionOf, rateOf, last_snoc]
          rfl
        | false =>
          injection h with h
          rw [← h]
          simp only [made, fl_s]
          simp only [has, callOf, nsOf, pidOf, actionOf, rateOf, last_snoc]
          rfl
      | call k =>
        simp only [Opt.fn, setSyscall] at h
        cases hl : lookup tbl k with
        | none => rw [hl] at h; cases h
        | some sc =>
          rw [hl] at h
          injection h with h
          rw [← h]
          simp only [made, fl_c]
          simp only [has, callOf, nsOf, pidOf, actionOf, rateOf, last_snoc, hl]
          rfl
      | ns n =>
        simp only [Opt.fn, setPidNamespace] at h
        by_cases hn : n = -1
        · simp only [hn, if_true] at h
          injection h with h
          rw [← h]
          simp only [made]
          simp only [has, callOf, nsOf, pidOf, actionOf, rateOf, last_snoc, scope, hn, if_true]
          rfl
        · simp only [hn, if_false] at h
          injection h with h
          rw [← h]
          simp only [made, fl_n]
          simp only [has, callOf, nsOf, pidOf, actionOf, rateOf, last_snoc, scope, hn, if_false]
          rfl
      | pid p =>
        injection h with h
        rw [← h]
        simp only [made, fl_p]
        simp only [has, callOf, nsOf, pidOf, actionOf, rateOf, last_snoc]
        rfl
      | drop =>
        injection h with h
        rw [← h]
        simp only [made]
        simp only [has, callOf, nsOf, pidOf, actionOf, rateOf, last_snoc]
        rfl
      | allow =>
        injection h with h
        rw [← h]
        simp only [made]
        simp only [has, callOf, nsOf, pidOf, actionOf, rateOf, last_snoc]
        rfl
      | rate x =>
        injection h with h
        rw [← h]
        simp only [made]
        simp only [has, callOf, nsOf, pidOf, actionOf, rateOf, last_snoc]
        rfl

/-! ### Looking calls up -/

theorem switched_reached {m : KMaps} (h : Reached m) : Switched m := by
  induction h with
  | empty => intro k v h; cases h
  | @add m r f _ ih =>
    unfold addRule
    dsimp only
    split
    · exact ih
    · have hc : ∀ k v, GoMap.get m.filter k = some v →
          isFilterEnabled { m with config := GoMap.set m.config (normKey r.key).flags 1 } k.flags = true := by
        intro k v hk
        rw [enabled_set, ih k v hk, Bool.or_true]
      split
      · exact hc
      · intro k v hk
        rw [GoMap.get_set] at hk
        split at hk
        · next he =>
          subst he
          show isFilterEnabled { m with config := GoMap.set m.config (normKey r.key).flags 1 } _ = true
          rw [enabled_set, decide_eq_true rfl, Bool.true_or]
        · exact hc k v hk
  | @del m r _ ih =>
    unfold delRule
    split
    · intro k v hk
      rw [GoMap.get_del] at hk
      split at hk
      · cases hk
      · exact ih k v hk
    · exact ih
  | @enable m _ ih =>
    intro k v hk
    unfold Filter.enable
    rw [enabled_set, ih k v hk, Bool.or_true]
  | @eval m mode ns proc nr _ ih =>
    have : ∀ ks : List FilterKey, Switched (evalLoop m ks).1 := by
      intro ks
      induction ks with
      | nil => exact ih
      | cons k ks ih2 =>
        unfold evalLoop
        split
        · next he =>
          split
          · next v hv =>
            intro k' v' hk'
            rw [GoMap.get_set] at hk'
            split at hk'
            · next e => subst e; exact he
            · exact ih k' v' hk'
          · exact ih2
        · exact ih2
    unfold runNfilter
    split
    · exact this _
    · exact ih

/-- Two tables that have the same under the keys of a call decide it alike. -/
theorem evalLoop_congr {m m' : KMaps} : ∀ {ks : List FilterKey},
    (∀ k ∈ ks, isFilterEnabled m k.flags = true → GoMap.get m.filter k ≠ none → isFilterEnabled m' k.flags = true) →
    (∀ k ∈ ks, isFilterEnabled m' k.flags = true → GoMap.get m'.filter k ≠ none → isFilterEnabled m k.flags = true) →
    (∀ k ∈ ks, GoMap.get m'.filter k = GoMap.get m.filter k) → (evalLoop m' ks).2 = (evalLoop m ks).2
  | [], _, _, _ => rfl
  | k :: ks, h1, h2, h3 => by
    have ih := evalLoop_congr (ks := ks) (fun k hk => h1 k (List.mem_cons_of_mem _ hk))
      (fun k hk => h2 k (List.mem_cons_of_mem _ hk)) (fun k hk => h3 k (List.mem_cons_of_mem _ hk))
    have g1 := h1 k List.mem_cons_self
    have g2 := h2 k List.mem_cons_self
    have g3 := h3 k List.mem_cons_self
    unfold evalLoop
    rw [g3]
    rw [g3] at g2
    cases hg : GoMap.get m.filter k with
    | none =>
      rw [ite_self, ite_self]
      exact ih
    | some v =>
      rw [hg] at g1 g2
      by_cases he : isFilterEnabled m k.flags = true
      · rw [if_pos he, if_pos (g1 he (by simp))]
      · rw [if_neg he, if_neg (fun h => he (g2 h (by simp)))]
        exact ih

/-- A rule under a key that is not asked for changes nothing. -/
theorem add_elsewhere {m : KMaps} (hm : Switched m) {r : Rule} {mode : BitVec 16} {ns proc nr : BitVec 32}
    (hf : (normKey r.key).flags ≠ fmodeEnabled) (hk : normKey r.key ∉ evalKeys mode ns proc nr) :
    (runNfilter (addRule m r).1 mode ns proc nr).2 = (runNfilter m mode ns proc nr).2 := by
  have hget : ∀ k, k ≠ normKey r.key → GoMap.get (addRule m r).1.filter k = GoMap.get m.filter k := by
    intro k hk
    show GoMap.get (GoMap.set m.filter (normKey r.key) r.val) k = _
    rw [GoMap.get_set, if_neg (fun h => hk h.symm)]
  have hen : ∀ t, isFilterEnabled (addRule m r).1 t = (decide ((normKey r.key).flags = t) || isFilterEnabled m t) := by
    intro t
    exact enabled_set m (normKey r.key).flags t
  unfold runNfilter
  rw [hen, decide_eq_false hf, Bool.false_or]
  split
  · refine evalLoop_congr ?_ ?_ ?_
    · intro k hk' he _
      rw [hen, he, Bool.or_true]
    · intro k hk' he hg
      rw [hget k (fun e => hk (e ▸ hk'))] at hg
      obtain ⟨v, hv⟩ := Option.ne_none_iff_exists'.1 hg
      exact hm k v hv
    · intro k hk'
      exact hget k (fun e => hk (e ▸ hk'))
  · rfl

theorem modes {b : Bool} {opts : List Opt} (h : ModeIs b opts) : has false opts = !b ∧ has true opts = b := by
  have h1 : has b opts = true := (has_iff b opts).2 h.1
  have h2 : has (!b) opts = false := by
    rw [← Bool.not_eq_true]
    exact fun e => h.2 ((has_iff _ _).1 e)
  cases b
  · exact ⟨h1, h2⟩
  · exact ⟨h2, h1⟩

theorem fl_nsWide (b : Bool) : fl (!b) b false true false = bits b ||| 0x4000#16 := by decide +revert
theorem fl_nsProcCall (b : Bool) : fl (!b) b true true true = bits b ||| 0xE000#16 := by decide +revert
theorem fl_nsCall (b : Bool) : fl (!b) b true true false = bits b ||| 0xC000#16 := by decide +revert
theorem fl_procCall (b : Bool) : fl (!b) b true false true = bits b ||| 0xA000#16 := by decide +revert
theorem fl_call (b : Bool) : fl (!b) b true false false = bits b ||| 0x8000#16 := by decide +revert
theorem fl_metrics (b c n p : Bool) : (fl (!b) b c n p &&& fmodeMetrics ≠ 0) ↔ b = true := by decide +revert
theorem fl_ne (b c n p : Bool) : fl (!b) b c n p ≠ fmodeEnabled := by decide +revert

theorem inv0 (b c n p : Bool) : bits b ||| ftypePidNS = fl (!b) b c n p → c = false ∧ n = true ∧ p = false := by
  revert b c n p; decide
theorem inv1 (b c n p : Bool) : bits b ||| ftypePidNS ||| ftypePid ||| ftypeSyscall = fl (!b) b c n p → c = true := by
  revert b c n p; decide
theorem inv2 (b c n p : Bool) : bits b ||| ftypePidNS ||| ftypeSyscall = fl (!b) b c n p → c = true ∧ p = false := by
  revert b c n p; decide
theorem inv3 (b c n p : Bool) : bits b ||| ftypePid ||| ftypeSyscall = fl (!b) b c n p → c = true ∧ n = false := by
  revert b c n p; decide
theorem inv4 (b c n p : Bool) : bits b ||| ftypeSyscall = fl (!b) b c n p → c = true ∧ n = false ∧ p = false := by
  revert b c n p; decide

/-- The key of a rule that is asked for. -/
theorem key_about {tbl : Syscalls} {opts : List Opt} {b : Bool} (hb : ModeIs b opts) (ha : Asked tbl b opts)
    {ns proc nr : BitVec 32} (h : About tbl opts ns proc nr) :
    normKey (made tbl opts).key = (levelOf tbl opts).key (bits b) ns proc nr := by
  obtain ⟨h1, h2⟩ := modes hb
  obtain ⟨a1, a2, a3⟩ := h
  unfold Asked at ha
  unfold made levelOf normKey
  rw [h1, h2]
  simp only [fl_metrics]
  cases hc : callOf tbl opts with
  | none =>
    rw [hc] at ha
    obtain ⟨rfl, b2, b3⟩ := ha
    obtain ⟨n, hn⟩ := Option.ne_none_iff_exists'.1 b2
    obtain rfl := a2 n hn
    rw [hn, b3, if_pos ⟨rfl, rfl⟩]
    simp only [Option.isSome, Option.getD, Level.key, fl_nsWide]
    rfl
  | some x =>
    rw [hc] at ha
    obtain rfl := a1 x hc
    rw [if_neg (by
      rintro ⟨rfl, e2⟩
      rcases ha with ha | ha
      · cases ha
      · exact ha e2)]
    cases hn : nsOf opts with
    | none =>
      cases hp : pidOf opts with
      | none => simp only [Option.isSome, Option.getD, Level.key, fl_call]
      | some p =>
        obtain rfl := a3 p hp
        simp only [Option.isSome, Option.getD, Level.key, fl_procCall]
    | some n =>
      obtain rfl := a2 n hn
      cases hp : pidOf opts with
      | none => simp only [Option.isSome, Option.getD, Level.key, fl_nsCall]
      | some p =>
        obtain rfl := a3 p hp
        simp only [Option.isSome, Option.getD, Level.key, fl_nsProcCall]

theorem normKey_flags (k : FilterKey) : (normKey k).flags = k.flags ∧ (normKey k).pidns = k.pidns ∧ (normKey k).thrid = k.thrid := by
  unfold normKey
  split <;> exact ⟨rfl, rfl, rfl⟩

/-- A key that a call is looked up with is one of a rule about it. -/
theorem key_asked {tbl : Syscalls} {opts : List Opt} {b : Bool} (hb : ModeIs b opts) {ns proc nr : BitVec 32}
    (hnr : nr ≠ -1) (h : normKey (made tbl opts).key ∈ evalKeys (bits b) ns proc nr) :
    Asked tbl b opts ∧ About tbl opts ns proc nr := by
  obtain ⟨h1, h2⟩ := modes hb
  unfold made normKey at h
  rw [h1, h2] at h
  simp only [fl_metrics] at h
  unfold Asked About
  unfold evalKeys at h
  have flags : ∀ {c n p : Bool} {k : FilterKey},
      k.flags = fl (!b) b c n p → k ∈ [⟨bits b ||| ftypePidNS, ns, 0, -1⟩,
        ⟨bits b ||| ftypePidNS ||| ftypePid ||| ftypeSyscall, ns, proc, nr⟩,
        ⟨bits b ||| ftypePidNS ||| ftypeSyscall, ns, 0, nr⟩,
        ⟨bits b ||| ftypePid ||| ftypeSyscall, 0, proc, nr⟩,
        (⟨bits b ||| ftypeSyscall, 0, 0, nr⟩ : FilterKey)] →
      (c = false ∧ n = true ∧ p = false ∧ k.pidns = ns ∧ k.syscall = -1) ∨
      (c = true ∧ k.syscall = nr ∧ (n = true → k.pidns = ns) ∧ (p = true → k.thrid = proc)) := by
    intro c n p k hk hm
    simp only [List.mem_cons, List.not_mem_nil, or_false] at hm
    rcases hm with rfl | rfl | rfl | rfl | rfl
    · left
      have : c = false ∧ n = true ∧ p = false := inv0 b c n p hk
      exact ⟨this.1, this.2.1, this.2.2, rfl, rfl⟩
    · right
      have : c = true := inv1 b c n p hk
      exact ⟨this, rfl, fun _ => rfl, fun _ => rfl⟩
    · right
      have : c = true ∧ p = false := inv2 b c n p hk
      exact ⟨this.1, rfl, fun _ => rfl, fun e => by rw [this.2] at e; cases e⟩
    · right
      have : c = true ∧ n = false := inv3 b c n p hk
      exact ⟨this.1, rfl, fun e => by rw [this.2] at e; (cases e), fun _ => rfl⟩
    · right
      have : c = true ∧ n = false ∧ p = false := inv4 b c n p hk
      exact ⟨this.1, rfl, fun e => by rw [this.2.1] at e; (cases e), fun e => by rw [this.2.2] at e; cases e⟩
  have hsome : ∀ {o : Option (BitVec 32)} {y : BitVec 32}, (o.isSome = true → o.getD 0 = y) → ∀ x, o = some x → y = x := by
    rintro o y h x rfl
    exact (h rfl).symm
  split at h
  · next hif =>
    rcases flags rfl h with ⟨e1, e2, e3, e4, -⟩ | ⟨e1, e2, -⟩
    · have c0 : callOf tbl opts = none := by simpa using e1
      rw [c0]
      refine ⟨⟨hif.1, ?_, ?_⟩, ⟨fun x hx => by (cases hx), hsome (fun _ => e4), ?_⟩⟩
      · intro e; rw [e] at e2; cases e2
      · simpa using e3
      · intro x hx; rw [hx] at e3; cases e3
    · exact absurd e2.symm hnr
  · next hif =>
    rcases flags rfl h with ⟨e1, e2, e3, e4, e5⟩ | ⟨e1, e2, e3, e4⟩
    · have c0 : callOf tbl opts = none := by simpa using e1
      rw [c0] at e5
      change (0 : BitVec 32) = -1 at e5
      exact absurd e5 (by decide)
    · obtain ⟨x, hx⟩ := Option.isSome_iff_exists.1 e1
      refine ⟨?_, hsome (fun _ => e2), hsome e3, hsome e4⟩
      rw [hx] at hif ⊢
      show b = false ∨ x ≠ 0
      by_cases hb' : b = true
      · right; intro e; exact hif ⟨hb', e⟩
      · left; simpa using hb'

/-! ### C131 -/

/-- C131 (partial): a rule made of options in any order is put into the tables.  It is to be one that is asked for at
all.  A call that it is about, and for which no rule of an earlier level is in the tables, is decided by it: let
through or dropped as the rule says.  Every other call is decided as before.  Missing: the other rules (see below). -/
theorem c131_decides_partial (tbl : Syscalls) {m : KMaps} (hm : Reached m) {opts : List Opt} {b : Bool} (hb : ModeIs b opts)
    (ha : Asked tbl b opts) {r : Rule} (hr : build tbl opts = some r) (ns proc nr : BitVec 32) (hnr : nr ≠ -1) :
    (addRule m r).2 = true ∧
    (About tbl opts ns proc nr → (∀ l ∈ levels.takeWhile (· ≠ levelOf tbl opts), ∀ v, ¬ Active m (l.key (bits b) ns proc nr) v) →
      ∃ v, Decides (addRule m r).1 (bits b) ns proc nr (levelOf tbl opts) v ∧ v.action = actionOf opts ∧
        v.sampleRate = (rateOf opts).setWidth 32 ∧ v.sampleCount = 0 ∧ v.hits = 0 ∧
        (Enabled m → (runNfilter (addRule m r).1 (bits b) ns proc nr).2 = actionOf opts)) ∧
    (¬ About tbl opts ns proc nr →
      (runNfilter (addRule m r).1 (bits b) ns proc nr).2 = (runNfilter m (bits b) ns proc nr).2) := by
  obtain rfl := build_eq tbl opts hr
  have hfl : (normKey (made tbl opts).key).flags ≠ fmodeEnabled := by
    rw [(normKey_flags _).1]
    unfold made
    rw [(modes hb).1, (modes hb).2]
    exact fl_ne _ _ _ _
  have hsw := switched_reached hm
  refine ⟨rfl, fun hab hno => ?_, fun hab => ?_⟩
  · have hk := key_about hb ha hab
    have hact : Active (addRule m (made tbl opts)).1 ((levelOf tbl opts).key (bits b) ns proc nr) (made tbl opts).val := by
      rw [← hk]
      refine ⟨?_, 1, ?_, by decide⟩
      · show GoMap.get (GoMap.set m.filter _ _) _ = _
        rw [GoMap.get_set_same]
      · show GoMap.get (GoMap.set m.config _ _) _ = _
        rw [GoMap.get_set_same]
    have hpre : ∃ post, levels = levels.takeWhile (· ≠ levelOf tbl opts) ++ levelOf tbl opts :: post := by
      cases levelOf tbl opts <;> exact ⟨_, rfl⟩
    obtain ⟨post, hpre⟩ := hpre
    have hd : Decides (addRule m (made tbl opts)).1 (bits b) ns proc nr (levelOf tbl opts) (made tbl opts).val := by
      refine ⟨_, post, hpre, hact, ?_⟩
      intro l hl v hv
      have hne : normKey (made tbl opts).key ≠ l.key (bits b) ns proc nr := by
        rw [hk]
        intro e
        have := congrArg FilterKey.flags e
        have h2 : l ≠ levelOf tbl opts := by
          revert hl
          generalize levelOf tbl opts = l'
          cases l <;> cases l' <;> decide
        revert this h2
        generalize levelOf tbl opts = l'
        cases l <;> cases l' <;> cases b <;> simp [Level.key, bits]
      refine hno l hl v ⟨?_, ?_⟩
      · have := hv.1
        change GoMap.get (GoMap.set m.filter _ _) _ = _ at this
        rwa [GoMap.get_set_other _ _ hne] at this
      · have h1 := hv.1
        change GoMap.get (GoMap.set m.filter _ _) _ = _ at h1
        rw [GoMap.get_set_other _ _ hne] at h1
        exact (isFilterEnabled_iff m _).1 (hsw _ _ h1)
    refine ⟨_, hd, rfl, rfl, rfl, rfl, ?_⟩
    intro hen
    have hen' : isFilterEnabled (addRule m (made tbl opts)).1 fmodeEnabled = true := by
      show isFilterEnabled { m with config := GoMap.set m.config (normKey (made tbl opts).key).flags 1 } _ = true
      rw [enabled_set, (isFilterEnabled_iff m fmodeEnabled).2 hen, Bool.or_true]
    unfold runNfilter
    rw [if_pos hen']
    rcases eval_spec (addRule m (made tbl opts)).1 (bits b) ns proc nr with ⟨l, v, hd', he⟩ | ⟨hno', -⟩
    · obtain ⟨-, rfl⟩ := decides_unique hd hd'
      rw [he]
      show (hit _).2 = _
      refine (hit_verdict _).2 ?_
      rintro ⟨-, h2, -⟩
      revert h2
      show ¬ 1 < ((0 : BitVec 32).toNat + 1) % 2 ^ 32
      decide
    · exact absurd hd (hno' _ _)
  · exact add_elsewhere hsw hfl (fun hk => hab (key_asked hb hnr hk).2)

/-- C131 is violated by every other rule: it is accepted, and no call is decided otherwise than before. Such are the
rules for a process or for a namespace alone (or for both), and a rule that is to count the calls of `read`. -/
theorem c131_violated (tbl : Syscalls) {m : KMaps} (hm : Reached m) {opts : List Opt} {b : Bool} (hb : ModeIs b opts)
    (ha : ¬ Asked tbl b opts) {r : Rule} (hr : build tbl opts = some r) :
    (addRule m r).2 = true ∧ ∀ ns proc nr : BitVec 32, nr ≠ -1 →
      (runNfilter (addRule m r).1 (bits b) ns proc nr).2 = (runNfilter m (bits b) ns proc nr).2 := by
  obtain rfl := build_eq tbl opts hr
  refine ⟨rfl, fun ns proc nr hnr => ?_⟩
  refine add_elsewhere (switched_reached hm) ?_ (fun hk => ha (key_asked hb hnr hk).1)
  rw [(normKey_flags _).1]
  unfold made
  rw [(modes hb).1, (modes hb).2]
  exact fl_ne _ _ _ _

/-- "The calls of open of process 7 in namespace 9 are dropped, but one in 3". -/
def sampleOpts : List Opt := [.pid 7, .rate 3, .call (.int 2), .drop, .ns 9, .mode false]

/-- A table with two calls. -/
def sampleTbl : Syscalls := ⟨[(2, ⟨2, "sys_open", "", ""⟩), (0, ⟨0, "sys_read", "", ""⟩)], []⟩

example : ModeIs false sampleOpts ∧ Asked sampleTbl false sampleOpts ∧ About sampleTbl sampleOpts 9 7 2 ∧
    ¬ About sampleTbl sampleOpts 9 8 2 ∧ build sampleTbl sampleOpts ≠ none ∧ Reached (Filter.enable KMaps.empty) := by
  refine ⟨⟨by simp [sampleOpts], by simp [sampleOpts]⟩, Or.inl rfl, ⟨?_, ?_, ?_⟩, ?_, by decide, .enable .empty⟩
  · intro x hx; injection hx
  · intro x hx; injection hx
  · intro x hx; injection hx
  · intro h; exact absurd (h.2.2 7 rfl) (by decide)

/-- Rules that are not asked for: for a process; for what a namespace does; for counting `read`. -/
example : ¬ Asked sampleTbl false [.mode false, .pid 7, .drop] ∧ ¬ Asked sampleTbl false [.mode false, .ns 9, .allow] ∧
    ¬ Asked sampleTbl true [.mode true, .call (.int 0), .ns 9] ∧
    ModeIs true [.mode true, .call (.int 0), .ns 9] ∧
    build sampleTbl [.mode true, .call (.int 0), .ns 9] ≠ none := by
  refine ⟨?_, ?_, ?_, ⟨by simp, by simp⟩, by decide⟩
  · rintro ⟨h, _⟩; cases h
  · rintro ⟨h, _⟩; cases h
  · rintro (h | h)
    · cases h
    · exact h rfl

end Swoll.Props.Rule
