import Verif.Lemmas.CmdLine
/-
C127: the selectors given to `swoll top` and `swoll trace`.
-/
namespace Swoll.Props.CmdLine
open Swoll Swoll.CmdLine Swoll.Cluster Swoll.Spec.CmdLine Swoll.Spec.Cluster Swoll.Lemmas.CmdLine
open Swoll.JobArgs (Str validKey validValue)

/-- C127, `swoll top -n NS -l CONDITIONS`: the API server accepts the watch, and it is about exactly the running
pods of the namespace, or of all if none is given, that meet every condition. -/
theorem c127_top {a : Api} {cs : List Cond} (h : ∀ c ∈ cs, c.Good a) (hf : a.field "status.phase".toList = true)
    (cri config root ns : String) :
    ∃ o f, topObserver cri config root ns (String.ofList (commas (cs.map Cond.text))) = some o ∧
      Reaches o cri config root ∧ selects a o = some f ∧
      ∀ p, f p = true ↔ (ns = "" ∨ p.ns = ns) ∧ p.fields.get "status.phase".toList = some "Running".toList ∧
        ∀ c ∈ cs, c.Met p.labels := by
  refine ⟨_, fun p => (ns == "" || p.ns == ns) && (cs.map req).all (Req.labels p.labels) &&
      [Req.eq "status.phase".toList "Running".toList].all (Req.fields p.fields), rfl, ⟨rfl, rfl, rfl⟩, ?_, ?_⟩
  · unfold selects
    simp only [String.toList_ofList, reqs_conds h, running hf]
  · intro p
    have hr : (p.fields.get "status.phase".toList).getD [] = "Running".toList ↔
        p.fields.get "status.phase".toList = some "Running".toList := by
      cases p.fields.get "status.phase".toList with
      | none => simp
      | some v => simp
    simp only [Bool.and_eq_true, Bool.or_eq_true, beq_iff_eq, List.all_eq_true, List.mem_singleton, forall_eq,
      Req.fields, decide_eq_true_eq, List.mem_map, forall_exists_index, and_imp, forall_apply_eq_imp_iff₂, met_iff,
      and_assoc, hr]
    exact and_congr Iff.rfl (And.comm)

/-- "Everything in the shop that has an owner, is of the web tier and not a canary, and is not paused." -/
def someConds : List Cond :=
  [.has "owner".toList, .equals "tier".toList "web".toList, .isnt "track".toList "canary".toList,
    .hasnt "paused".toList, .is "app".toList "nginx".toList]

example : String.ofList (commas (someConds.map Cond.text)) = "owner,tier==web,track!=canary,!paused,app=nginx" := by
  decide +kernel

theorem someConds_good : ∀ c ∈ someConds, c.Good Props.Cluster.someApi := by
  have key : ∀ k ∈ ["owner".toList, "tier".toList, "track".toList, "paused".toList, "app".toList],
      k ≠ [] ∧ validKey Props.Cluster.someApi.rules k = true := by decide +kernel
  have val : ∀ v ∈ ["web".toList, "canary".toList, "nginx".toList],
      validValue Props.Cluster.someApi.rules v = true := by decide +kernel
  intro c hc
  simp only [someConds, List.mem_cons, List.not_mem_nil, or_false] at hc
  rcases hc with rfl | rfl | rfl | rfl | rfl
  · exact key _ (by simp)
  · exact ⟨key _ (by simp), val _ (by simp)⟩
  · exact ⟨key _ (by simp), val _ (by simp)⟩
  · exact key _ (by simp)
  · exact ⟨key _ (by simp), val _ (by simp)⟩

example : Props.Cluster.someApi.field "status.phase".toList = true := by decide +kernel

/-- A running web server with an owner, with some other labels. -/
def ownedPod (more : GoMap Str Str) : Pod :=
  ⟨"shop", "web-0", 1, [("tier".toList, "web".toList), ("app".toList, "nginx".toList),
    ("owner".toList, "ann".toList)] ++ more, [("status.phase".toList, "Running".toList)], "Running"⟩

example : (∀ c ∈ someConds, c.Met (ownedPod [("track".toList, "stable".toList)]).labels) ∧
    ¬ (∀ c ∈ someConds, c.Met (ownedPod [("paused".toList, [])]).labels) := by
  constructor
  · intro c hc
    simp only [someConds, List.mem_cons, List.not_mem_nil, or_false] at hc
    rcases hc with rfl | rfl | rfl | rfl | rfl
    · exact ⟨"ann".toList, by decide +kernel⟩
    · show GoMap.get _ _ = _; decide +kernel
    · show GoMap.get _ _ ≠ _; decide +kernel
    · show GoMap.get _ _ = _; decide +kernel
    · show GoMap.get _ _ = _; decide +kernel
  · intro h
    have := h (.hasnt "paused".toList) (by simp [someConds])
    exact absurd (show GoMap.get _ _ = _ from this) (by decide +kernel)

/-- C127, the hub of `swoll trace -n NS`: it follows exactly the pods of the namespace, or of all if none is given,
that are not labelled `swoll=false`; the calls of any other are given no container. -/
theorem c127_hub {a : Api} (hkey : a.rules.key "swoll".toList = true) (hv : a.rules.value "false".toList = true)
    (cri config root ns : String) :
    ∃ o f, hubObserver cri config root ns = some o ∧ Reaches o cri config root ∧
      selects a o = some f ∧
      ∀ p, f p = true ↔ (ns = "" ∨ p.ns = ns) ∧ p.labels.get "swoll".toList ≠ some "false".toList := by
  refine ⟨_, fun p => (ns == "" || p.ns == ns) && [Req.ne "swoll".toList "false".toList].all (Req.labels p.labels),
    rfl, ⟨rfl, rfl, rfl⟩, ?_, ?_⟩
  · have hg : ∀ c ∈ [Cond.isnt "swoll".toList "false".toList], c.Good a := by
      intro c hc
      rw [List.mem_singleton] at hc
      subst hc
      refine ⟨⟨by decide +kernel, ?_⟩, ?_⟩
      · unfold validKey; rw [hkey]; decide +kernel
      · unfold validValue; rw [hv]; decide +kernel
    have hr := reqs_conds hg
    rw [show commas ([Cond.isnt "swoll".toList "false".toList].map Cond.text) = "swoll!=false".toList by
      decide +kernel] at hr
    have h2 : reqs (fieldReq a) "".toList = some [] := rfl
    unfold selects
    simp only [hr, h2, List.map_cons, List.map_nil, req, List.all_nil, Bool.and_true]
  · intro p
    simp [Req.labels]

/-- C127 (partial), `swoll trace -n NS -f FIELDS LABELS`: if the words are labels separated by commas, with or
without spaces, and no label and no field is given twice, then the watch of the job is accepted, and it is about
exactly the pods of the namespace, or of all if none is given, that have all the labels and fields. Missing: labels
that are words of their own, without commas (`c127_words_violated`), and labels given twice
(`c127_twice_violated`). -/
theorem c127_trace_partial {a : Api} {words ss ts : List Str} {ls fs : List (Str × Str)}
    (hw : spaced words = commas ss) (hs : SayAll ss ls) (ht : SayAll ts fs)
    (hl : GoodLabels a ls) (hf : GoodFields a fs)
    (hfv : ∀ e ∈ fs, validKey a.rules e.1 = true ∧ validValue a.rules e.2 = true)
    (cri config root ns : String) :
    ∃ o f, traceObserver a.rules cri config root ns words (commas ts) = some o ∧
      Reaches o cri config root ∧ selects a o = some f ∧
      ∀ p, f p = true ↔ (ns = "" ∨ p.ns = ns) ∧ (∀ e ∈ ls, p.labels.get e.1 = some e.2) ∧
        ∀ e ∈ fs, (p.fields.get e.1).getD [] = e.2 := by
  let lm : GoMap Str Str := ls.foldl (fun m e => GoMap.set m e.1 e.2) []
  let fm : GoMap Str Str := fs.foldl (fun m e => GoMap.set m e.1 e.2) []
  have hgl : ∀ k, GoMap.get lm k = GoMap.get ls k := by
    intro k
    have := Lemmas.JobArgs.get_foldl_set hl.1 [] k
    rw [GoMap.get_nil, Option.or_none] at this
    exact this
  have hgf : ∀ k, GoMap.get fm k = GoMap.get fs k := by
    intro k
    have := Lemmas.JobArgs.get_foldl_set hf.1 [] k
    rw [GoMap.get_nil, Option.or_none] at this
    exact this
  have gl : GoodLabels a lm :=
    ⟨nodup_foldl_set _ _ GoMap.nodupKeys_nil, fun e he => hl.2 e (mem_foldl_set he)⟩
  have gf : GoodFields a fm :=
    ⟨nodup_foldl_set _ _ GoMap.nodupKeys_nil, fun e he => hf.2 e (mem_foldl_set he)⟩
  have hsel : traceSel a.rules words (commas ts) = some ⟨⟨lm, []⟩, ⟨fm, []⟩⟩ := by
    unfold traceSel
    rw [← spaced_join, hw, labelsMap_says hs hl.2, labelsMap_says ht hfv]
    dsimp only
    split
    · next he =>
      have : fs = [] := by
        cases ht with
        | nil => rfl
        | cons h1 h2 =>
          exfalso
          rw [commas_join] at he
          rcases Lemmas.JobArgs.join_nil he with h | h
          · cases h
          · injection h with h _; exact says_ne h1 h
      subst this
      rfl
    · rfl
  obtain ⟨f, h1, h2⟩ := Lemmas.Cluster.selects_printed (a := a)
    (o := ⟨cri, config, ns, String.ofList (JobArgs.setString lm), String.ofList (JobArgs.setString fm), root, false⟩)
    gl gf rfl rfl
  refine ⟨_, f, ?_, ?_, h1, ?_⟩
  · unfold traceObserver
    rw [hsel]
    rfl
  · exact ⟨rfl, rfl, rfl⟩
  · intro p
    rw [h2]
    refine and_congr Iff.rfl (and_congr ?_ ?_)
    · constructor
      · intro h e he
        exact h _ _ (by rw [hgl]; exact GoMap.get_of_mem hl.1 he)
      · intro h k v hk
        rw [hgl] at hk
        exact h _ (GoMap.mem_of_get hk)
    · constructor
      · intro h e he
        exact h _ _ (by rw [hgf]; exact GoMap.get_of_mem hf.1 he)
      · intro h k v hk
        rw [hgf] at hk
        exact h _ (GoMap.mem_of_get hk)

example : SayAll ["app=nginx".toList, " tier = web".toList] Props.Cluster.someSel.label.matchLabels ∧
    spaced ["app=nginx,".toList, "tier".toList, "=".toList, "web".toList] =
      commas ["app=nginx".toList, " tier = web".toList] := by
  refine ⟨.cons ⟨[], [], [], [], by simp, by decide +kernel⟩
    (.cons ⟨[' '], [' '], [' '], [], by decide +kernel, by decide +kernel⟩ .nil), by decide +kernel⟩

example : SayAll ["spec.nodeName=node-1".toList] Props.Cluster.someSel.field.matchLabels :=
  .cons ⟨[], [], [], [], by simp, by decide +kernel⟩ .nil

/-- C127 violated: `swoll trace app=nginx tier=web` ends; two labels that are words of their own, which are joined
by a space, are refused, whatever they are. -/
theorem c127_words_violated {a : Api} {w1 w2 : Str} {ws : List Str} {es : List (Str × Str)}
    (h : SayAll (w1 :: w2 :: ws) es) (hv : ∀ e ∈ es, validKey a.rules e.1 = true ∧ validValue a.rules e.2 = true)
    (cri config root ns : String) (fields : Str) :
    traceObserver a.rules cri config root ns (w1 :: w2 :: ws) fields = none := by
  unfold traceObserver traceSel
  rw [labelsMap_words h hv]

example : SayAll ["app=nginx".toList, "tier=web".toList] Props.Cluster.someSel.label.matchLabels :=
  .cons ⟨[], [], [], [], by simp, by decide +kernel⟩ (.cons ⟨[], [], [], [], by simp, by decide +kernel⟩ .nil)

/-- C127 violated: of a label given twice, only the last one counts. The job watches pods that lack what was asked
for first; there are no pods that have both. -/
theorem c127_twice_violated {a : Api} {k v w : Str} (hk : validKey a.rules k = true)
    (hv : validValue a.rules v = true) (hw : validValue a.rules w = true) (hne : v ≠ w)
    (cri config root ns : String) :
    ∃ o f, traceObserver a.rules cri config root ns [commas [k ++ ['='] ++ v, k ++ ['='] ++ w]] [] = some o ∧
      selects a o = some f ∧
      ∀ p, (ns = "" ∨ p.ns = ns) → p.labels.get k = some w → f p = true ∧ p.labels.get k ≠ some v := by
  have hsay : ∀ x : Str, Says (k ++ ['='] ++ x) (k, x) := fun x => ⟨[], [], [], [], by simp, by simp⟩
  have hm := labelsMap_says (r := a.rules) (.cons (hsay v) (.cons (hsay w) .nil)) (by
    intro e he
    simp only [List.mem_cons, List.not_mem_nil, or_false] at he
    rcases he with rfl | rfl
    · exact ⟨hk, hv⟩
    · exact ⟨hk, hw⟩)
  have hset : [(k, v), (k, w)].foldl (fun (m : GoMap Str Str) e => GoMap.set m e.1 e.2) [] = [(k, w)] := by
    simp [GoMap.set, GoMap.del]
  rw [hset] at hm
  obtain ⟨f, h1, h2⟩ := Lemmas.Cluster.selects_printed (a := a) (ls := [(k, w)]) (fs := [])
    (o := ⟨cri, config, ns, String.ofList (JobArgs.setString [(k, w)]), String.ofList (JobArgs.setString []), root,
      false⟩)
    ⟨by simp [GoMap.NodupKeys, GoMap.keys], by simp [hk, hw]⟩ ⟨GoMap.nodupKeys_nil, by simp⟩ rfl rfl
  refine ⟨_, f, ?_, h1, ?_⟩
  · unfold traceObserver traceSel
    rw [show JobArgs.join ' ' [commas [k ++ ['='] ++ v, k ++ ['='] ++ w]] =
      commas [k ++ ['='] ++ v, k ++ ['='] ++ w] from rfl, hm]
    rfl
  · intro p hn hp
    refine ⟨(h2 p).2 ⟨hn, ?_, ?_⟩, ?_⟩
    · intro k' v' hk'
      have := GoMap.mem_of_get hk'
      simp only [List.mem_singleton, Prod.mk.injEq] at this
      rw [this.1, this.2, hp]
    · intro k' v' hk'
      cases hk'
    · rw [hp]
      intro h
      injection h with h
      exact hne h.symm

example : validKey Props.Cluster.someApi.rules "app".toList = true ∧
    validValue Props.Cluster.someApi.rules "nginx".toList = true ∧
    validValue Props.Cluster.someApi.rules "redis".toList = true ∧ "nginx".toList ≠ "redis".toList := by
  decide +kernel

end Swoll.Props.CmdLine
