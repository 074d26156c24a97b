import Verif.Lemmas.Site
/-
Lemmas about observers that keep in touch with the API server.
-/
namespace Swoll.Lemmas.SiteSync
open Swoll Swoll.Site Swoll.Spec.Site Swoll.Lemmas.Site
open Swoll.Cluster (Key Pod Api Watcher Sel Change selected)
open Swoll.Lemmas.Service

variable {a : Api} {tbl : Syscalls.Syscalls} {crc : String → BitVec 64} {srt : List PubSub.Env → List PubSub.Env}

/-! ### What a step does to an observer -/

/-- The pods after a change. -/
def changed (pods : GoMap Key Pod) (k : Key) : Option Pod → GoMap Key Pod
  | some p => pods.set k p
  | none => pods.del k

inductive Turn (a : Api) (s s' : Site) (op : Op) (i : Option Nat) (w w' : Watcher) : Prop
  | same (hw : w' = w) (hp : s'.pods = s.pods) (ht : told s' i = told s i)
  | change (k : Key) (new : Option Pod) (hc : Changes op) (hn : ∀ p, new = some p → op = .put p ∧ p.key = k) (hr : new = none → op = .remove k)
      (hw : w' = w.hears a (s.pods.get k) new) (hp : s'.pods = changed s.pods k new) (ht : told s' i = told s i)
  | lose (hw : w' = w.lose) (hp : s'.pods = s.pods) (ht : told s' i = told s i)
  | list (hw : w' = w.list a s.pods) (hp : s'.pods = s.pods) (ht : told s' i = told s i)
  | handle (k : Key) (hw : w.handle s.cri k = some w') (hp : s'.pods = s.pods) (ht : told s' i = told s i)
  | tell (ev : Topology.Event) (hc : w.chan = ev :: w'.chan) (hw : w' = { w with chan := w'.chan })
      (hp : s'.pods = s.pods) (ht : told s' i = told s i ++ [some ev])

theorem told_snoc (s : Site) (s' : Site) (x : Service.Op) (h : s'.log = s.log ++ [x]) (i : Option Nat) :
    (told s' i = told s i ∧ (i = none → ∀ ev, x ≠ .outside (.topo ev)) ∧ (∀ p, i = some p → ∀ ev, x ≠ .notice p ev)) ∨
    ∃ ev, told s' i = told s i ++ [ev] ∧ ((i = none ∧ x = .outside (.topo ev)) ∨ ∃ p, i = some p ∧ x = .notice p ev) := by
  cases i with
  | none =>
    have quiet : (∀ ev, x ≠ .outside (.topo ev)) → told s' none = told s none := by
      intro hx
      simp only [told, h, List.filterMap_append]
      cases x with
      | outside o =>
        cases o with
        | topo ev => exact absurd rfl (hx ev)
        | _ => simp
      | _ => simp
    by_cases hx : ∃ ev, x = .outside (.topo ev)
    · obtain ⟨ev, rfl⟩ := hx
      exact Or.inr ⟨ev, by simp [told, h], Or.inl ⟨rfl, rfl⟩⟩
    · have hx : ∀ ev, x ≠ .outside (.topo ev) := fun ev e => hx ⟨ev, e⟩
      exact Or.inl ⟨quiet hx, (fun _ => hx), (fun p e => by cases e)⟩
  | some p =>
    have quiet : (∀ ev, x ≠ .notice p ev) → told s' (some p) = told s (some p) := by
      intro hx
      simp only [told, h, List.filterMap_append]
      cases x with
      | notice q ev =>
        have : ¬ q = p := by rintro rfl; exact hx ev rfl
        simp [this]
      | _ => simp
    by_cases hx : ∃ ev, x = .notice p ev
    · obtain ⟨ev, rfl⟩ := hx
      exact Or.inr ⟨ev, by simp [told, h], Or.inr ⟨p, rfl, rfl⟩⟩
    · have hx : ∀ ev, x ≠ .notice p ev := fun ev e => hx ⟨ev, e⟩
      exact Or.inl ⟨quiet hx, (fun e => by cases e), (fun q e => by injection e with e; subst e; exact hx)⟩

/-- The server does something that is not news of this observer. -/
theorem turn_serve {s s' : Site} {x : Service.Op} {out : List Daemon.Delivery} {i : Option Nat} {w' : Watcher}
    (hs : serve tbl crc srt s x = some (s', out)) (hw : watcher s' i = some w')
    (h1 : i = none → ∀ ev, x ≠ .outside (.topo ev)) (h2 : ∀ p, i = some p → ∀ ev, x ≠ .notice p ev) :
    s'.pods = s.pods ∧ told s' i = told s i ∧
    (watcher s i = some w' ∨ (watcher s i = none ∧ ∃ o, w' = Watcher.new o)) := by
  unfold serve at hs
  rw [Option.map_eq_some_iff] at hs
  obtain ⟨⟨v, out'⟩, g1, g2⟩ := hs
  injection g2 with g2 g3
  refine ⟨by rw [← g2], ?_, ?_⟩
  · rcases told_snoc s s' x (by rw [← g2]) i with ⟨e, -⟩ | ⟨ev, -, ⟨e1, e2⟩ | ⟨p, e1, e2⟩⟩
    · exact e
    · exact absurd e2 (h1 e1 ev)
    · exact absurd e2 (h2 p e1 ev)
  · subst g2
    cases i with
    | none => exact Or.inl hw
    | some p =>
      simp only [watcher] at hw ⊢
      rcases Nat.lt_or_ge p s.jobs.length with hl | hl
      · rw [List.getElem?_append_left hl] at hw
        exact Or.inl hw
      · right
        rw [List.getElem?_append_right hl] at hw
        refine ⟨List.getElem?_eq_none hl, ?_⟩
        have := List.mem_of_getElem? hw
        obtain ⟨pr, -, rfl⟩ := List.mem_map.1 this
        exact ⟨_, rfl⟩

/-- An observer does something. -/
theorem turn_observer {s s' : Site} {j i : Option Nat} {f : Watcher → Option Watcher} {w' : Watcher}
    (hs : observer s j f = some s') (hw : watcher s' i = some w') :
    s'.pods = s.pods ∧ told s' i = told s i ∧ ∃ w, watcher s i = some w ∧ (w' = w ∨ f w = some w') := by
  unfold observer at hs
  split at hs
  · rw [Option.map_eq_some_iff] at hs
    obtain ⟨y, h1, rfl⟩ := hs
    refine ⟨rfl, by cases i <;> rfl, ?_⟩
    cases i with
    | none =>
      simp only [watcher, Option.some.injEq] at hw
      subst hw
      exact ⟨_, rfl, Or.inr h1⟩
    | some p => exact ⟨w', hw, Or.inl rfl⟩
  · next p =>
    split at hs
    · injection hs with hs
      subst hs
      exact ⟨rfl, rfl, w', hw, Or.inl rfl⟩
    · next x hx =>
      rw [Option.map_eq_some_iff] at hs
      obtain ⟨y, h1, rfl⟩ := hs
      refine ⟨rfl, by cases i <;> rfl, ?_⟩
      cases i with
      | none => exact ⟨w', hw, Or.inl rfl⟩
      | some q =>
        simp only [watcher] at hw ⊢
        by_cases e : q = p
        · subst e
          rw [set_get hx] at hw
          injection hw with hw
          subst hw
          exact ⟨x, hx, Or.inr h1⟩
        · rw [set_get_ne e] at hw
          exact ⟨w', hw, Or.inl rfl⟩

theorem turn_step {s s' : Site} {op : Op} {out : List Daemon.Delivery} (hs : step a tbl crc srt s op = some (s', out))
    {i : Option Nat} {w' : Watcher} (hw : watcher s' i = some w') :
    (∃ w, watcher s i = some w ∧ Turn a s s' op i w w') ∨
    (watcher s i = none ∧ (∃ o, w' = Watcher.new o) ∧ told s' i = told s i) := by
  have served : ∀ {t : Site} {x : Service.Op}, t.pods = s.pods → t.log = s.log → t.hub = s.hub → t.jobs = s.jobs →
      serve tbl crc srt t x = some (s', out) → (∀ ev, x ≠ .outside (.topo ev)) → (∀ p ev, x ≠ .notice p ev) →
      (∃ w, watcher s i = some w ∧ Turn a s s' op i w w') ∨
      (watcher s i = none ∧ (∃ o, w' = Watcher.new o) ∧ told s' i = told s i) := by
    intro t x ep el eh ej h h1 h2
    obtain ⟨g1, g2, g3⟩ := turn_serve h hw (fun _ => h1) (fun p _ => h2 p)
    have et : told t i = told s i := by cases i <;> simp only [told, el]
    have ew : watcher t i = watcher s i := by cases i <;> simp only [watcher, eh, ej]
    rw [ep] at g1
    rw [et] at g2
    rw [ew] at g3
    rcases g3 with g3 | ⟨g3, g4⟩
    · exact Or.inl ⟨w', g3, .same rfl g1 g2⟩
    · exact Or.inr ⟨g3, g4, g2⟩
  have stays : s' = s → ∃ w, watcher s i = some w ∧ Turn a s s' op i w w' := by
    rintro rfl
    exact ⟨w', hw, .same rfl rfl rfl⟩
  cases op with
  | put p =>
    simp only [step, Option.some.injEq, Prod.mk.injEq] at hs
    obtain ⟨rfl, -⟩ := hs
    left
    cases i with
    | none =>
      simp only [watcher, Option.some.injEq] at hw
      subst hw
      exact ⟨s.hub, rfl, .change p.key (some p) trivial (fun q e => by injection e with e; subst e; exact ⟨rfl, rfl⟩) (fun e => by cases e) rfl rfl rfl⟩
    | some j =>
      simp only [watcher, change, List.getElem?_map, Option.map_eq_some_iff] at hw
      obtain ⟨w, h1, rfl⟩ := hw
      exact ⟨w, h1, .change p.key (some p) trivial (fun q e => by injection e with e; subst e; exact ⟨rfl, rfl⟩) (fun e => by cases e) rfl rfl rfl⟩
  | remove k =>
    simp only [step, Option.some.injEq, Prod.mk.injEq] at hs
    obtain ⟨rfl, -⟩ := hs
    left
    cases i with
    | none =>
      simp only [watcher, Option.some.injEq] at hw
      subst hw
      exact ⟨s.hub, rfl, .change k none trivial (fun q e => by cases e) (fun _ => rfl) rfl rfl rfl⟩
    | some j =>
      simp only [watcher, change, List.getElem?_map, Option.map_eq_some_iff] at hw
      obtain ⟨w, h1, rfl⟩ := hw
      exact ⟨w, h1, .change k none trivial (fun q e => by cases e) (fun _ => rfl) rfl rfl rfl⟩
  | runtime l =>
    simp only [step, Option.some.injEq, Prod.mk.injEq] at hs
    obtain ⟨rfl, -⟩ := hs
    exact Or.inl ⟨w', by cases i <;> exact hw, .same rfl rfl (by cases i <;> rfl)⟩
  | lose w =>
    simp only [step, Option.map_eq_some_iff, Prod.mk.injEq] at hs
    obtain ⟨y, h1, rfl, -⟩ := hs
    obtain ⟨g1, g2, x, g3, rfl | g4⟩ := turn_observer h1 hw
    · exact Or.inl ⟨_, g3, .same rfl g1 g2⟩
    · injection g4 with g4
      exact Or.inl ⟨x, g3, .lose g4.symm g1 g2⟩
  | list w =>
    simp only [step, Option.map_eq_some_iff, Prod.mk.injEq] at hs
    obtain ⟨y, h1, rfl, -⟩ := hs
    obtain ⟨g1, g2, x, g3, rfl | g4⟩ := turn_observer h1 hw
    · exact Or.inl ⟨_, g3, .same rfl g1 g2⟩
    · injection g4 with g4
      exact Or.inl ⟨x, g3, .list g4.symm g1 g2⟩
  | handle w k =>
    simp only [step, Option.map_eq_some_iff, Prod.mk.injEq] at hs
    obtain ⟨y, h1, rfl, -⟩ := hs
    obtain ⟨g1, g2, x, g3, rfl | g4⟩ := turn_observer h1 hw
    · exact Or.inl ⟨_, g3, .same rfl g1 g2⟩
    · exact Or.inl ⟨x, g3, .handle k g4 g1 g2⟩
  | tell w =>
    cases w with
    | none =>
      simp only [step] at hs
      split at hs
      · injection hs with hs; injection hs with hs; exact Or.inl (stays hs.symm)
      · next ev rest hch =>
        cases i with
        | some p =>
          obtain ⟨g1, g2, g3⟩ := turn_serve hs hw (fun e => by cases e) (fun p _ ev e => by cases e)
          rcases g3 with g3 | ⟨g3, g4⟩
          · exact Or.inl ⟨w', g3, .same rfl g1 g2⟩
          · exact Or.inr ⟨g3, g4, g2⟩
        | none =>
          unfold serve at hs
          rw [Option.map_eq_some_iff] at hs
          obtain ⟨⟨v, out'⟩, g1, g2⟩ := hs
          injection g2 with g2 g3
          subst g2
          simp only [watcher, Option.some.injEq] at hw
          subst hw
          exact Or.inl ⟨s.hub, rfl, .tell ev hch rfl rfl (by simp [told])⟩
    | some p =>
      simp only [step] at hs
      split at hs
      · next x pr hx hpr =>
        split at hs
        · next ev rest hch htd =>
          unfold serve at hs
          rw [Option.map_eq_some_iff] at hs
          obtain ⟨⟨v, out'⟩, g1, g2⟩ := hs
          injection g2 with g2 g3
          subst g2
          cases i with
          | none => exact Or.inl ⟨w', hw, .same rfl rfl (by simp [told])⟩
          | some q =>
            simp only [watcher] at hw
            by_cases e : q = p
            · subst e
              rw [List.getElem?_append_left (by rw [List.length_set]; exact lt_of_get hx), set_get hx] at hw
              injection hw with hw
              subst hw
              exact Or.inl ⟨x, hx, .tell ev hch rfl rfl (by simp [told])⟩
            · have htold : ∀ (z : Site), z.log = s.log ++ [.notice p (some ev)] → told z (some q) = told s (some q) := by
                intro z hz
                have : ¬ p = q := fun h => e h.symm
                simp [told, hz, this]
              rcases Nat.lt_or_ge q s.jobs.length with hl | hl
              · rw [List.getElem?_append_left (by rw [List.length_set]; exact hl), set_get_ne e] at hw
                exact Or.inl ⟨w', hw, .same rfl rfl (htold _ rfl)⟩
              · rw [List.getElem?_append_right (by rw [List.length_set]; exact hl)] at hw
                obtain ⟨pr', -, rfl⟩ := List.mem_map.1 (List.mem_of_getElem? hw)
                exact Or.inr ⟨List.getElem?_eq_none hl, ⟨_, rfl⟩, htold _ rfl⟩
        · injection hs with hs; injection hs with hs; exact Or.inl (stays hs.symm)
      · injection hs with hs; injection hs with hs; exact Or.inl (stays hs.symm)
  | create ns sel q u ok b =>
    simp only [step] at hs
    exact served (t := { s with sels := s.sels ++ [(ns, sel)] }) rfl rfl rfl rfl hs (fun ev e => by cases e)
      (fun p ev e => by cases e)
  | service x =>
    simp only [step] at hs
    split at hs
    · injection hs with hs; injection hs with hs; exact Or.inl (stays hs.symm)
    · next hr =>
      have h1 : ∀ ev, x ≠ .outside (.topo ev) := by rintro ev rfl; exact absurd rfl hr
      have h2 : ∀ p ev, x ≠ .notice p ev := by rintro p ev rfl; exact absurd rfl hr
      split at hs
      · exact served (t := { s with sels := s.sels ++ [noSel] }) rfl rfl rfl rfl hs h1 h2
      · exact served rfl rfl rfl rfl hs h1 h2

/-! ### The pods -/

def PodsOK (pods : GoMap Key Pod) : Prop := pods.NodupKeys ∧ ∀ e ∈ pods, e.2.key = e.1

theorem podsOK_step {s s' : Site} {op : Op} {out : List Daemon.Delivery} (hs : step a tbl crc srt s op = some (s', out))
    (h : PodsOK s.pods) : PodsOK s'.pods := by
  have hub := turn_step hs (i := none) rfl
  rcases hub with ⟨w, -, ht⟩ | ⟨h1, -⟩
  · cases ht with
    | change k new hc hn hr hw hp ht =>
      rw [hp]
      cases new with
      | none =>
        exact ⟨GoMap.nodupKeys_del h.1 k, fun e he => h.2 e (List.mem_filter.1 he).1⟩
      | some p =>
        refine ⟨GoMap.nodupKeys_set h.1 k p, fun e he => ?_⟩
        simp only [changed, GoMap.set] at he
        rcases List.mem_cons.1 he with rfl | he
        · exact (hn p rfl).2
        · exact h.2 e (List.mem_filter.1 he).1
    | same hw hp ht => rw [hp]; exact h
    | lose hw hp ht => rw [hp]; exact h
    | list hw hp ht => rw [hp]; exact h
    | handle k hw hp ht => rw [hp]; exact h
    | tell ev hc hw hp ht => rw [hp]; exact h
  · cases h1

theorem get_key {pods : GoMap Key Pod} (h : PodsOK pods) {k : Key} {p : Pod} (hg : pods.get k = some p) : p.key = k :=
  h.2 (k, p) (GoMap.mem_of_get hg)

/-! ### What the informer will know -/

/-- The pod as it is when all changes are handled. -/
def expected (w : Watcher) (k : Key) : Option Pod :=
  match (w.queue.filter (fun c => c.key == k)).getLast? with
  | some (.upd p) => some p
  | some _ => none
  | none => w.store.get k

structure Sync (a : Api) (pods : GoMap Key Pod) (w : Watcher) : Prop where
  agree : ∀ k, expected w k = (pods.get k).filter (selected a w.obs)
  sure : ∀ k, .gone k ∉ w.queue

def Blank (w : Watcher) : Prop := w.connected = false ∧ w.store = [] ∧ w.queue = []

theorem expected_snoc (w : Watcher) (c : Change) (k : Key) :
    expected { w with queue := w.queue ++ [c] } k =
      if c.key = k then (match c with | .upd p => some p | _ => none) else expected w k := by
  unfold expected
  simp only [List.filter_append, List.filter_cons, List.filter_nil]
  by_cases h : c.key = k
  · simp only [h, beq_self_eq_true, if_true, List.getLast?_append, List.getLast?_singleton, Option.some_or]
    cases c <;> rfl
  · have : (c.key == k) = false := by simpa using h
    simp [this, h]

theorem sync_hears {pods : GoMap Key Pod} (hp : PodsOK pods) {w : Watcher} (h : Sync a pods w) (hc : w.connected = true)
    {k : Key} {new : Option Pod} (hn : ∀ p, new = some p → p.key = k) :
    Sync a (changed pods k new) (w.hears a (pods.get k) new) := by
  have get : ∀ k', GoMap.get (changed pods k new) k' = if k = k' then new else pods.get k' := by
    intro k'
    cases new with
    | none => exact GoMap.get_del _ _ _
    | some p => exact GoMap.get_set _ _ _ _
  have app : ∀ c : Change, c.key = k → (∀ k, c ≠ .gone k) →
      (match c with | .upd p => some p | _ => none) = new.filter (selected a w.obs) →
      Sync a (changed pods k new) { w with queue := w.queue ++ [c] } := by
    intro c hk hg he
    refine ⟨?_, ?_⟩
    · intro k'
      rw [expected_snoc, get, hk]
      by_cases e : k = k'
      · rw [if_pos e, if_pos e]; exact he
      · rw [if_neg e, if_neg e]; exact h.agree k'
    · intro k' hm
      rcases List.mem_append.1 hm with hm | hm
      · exact h.sure k' hm
      · rw [List.mem_singleton] at hm; exact hg k' hm.symm
  unfold Watcher.hears
  rw [if_pos hc]
  split
  · next p hpn =>
    refine app (.upd p) (hn p ?_) (fun k e => by cases e) hpn.symm
    rw [Option.filter_eq_some_iff] at hpn; exact hpn.1
  · next p hpo hpn =>
    refine app (.del p) (get_key hp ?_) (fun k e => by cases e) hpn.symm
    rw [Option.filter_eq_some_iff] at hpo; exact hpo.1
  · next hpo hpn =>
    refine ⟨?_, h.sure⟩
    intro k'
    rw [get, h.agree]
    by_cases e : k = k'
    · subst e; rw [if_pos rfl, hpn, hpo]
    · rw [if_neg e]

theorem sync_list {pods : GoMap Key Pod} (hp : PodsOK pods) {w : Watcher} (h : Sync a pods w ∨ Blank w) :
    Sync a pods (w.list a pods) ∨ Blank (w.list a pods) := by
  unfold Watcher.list
  split
  · exact h
  · next hcs =>
    left
    have hcon : w.connected = false := by
      cases hw : w.connected with
      | false => rfl
      | true => rw [hw] at hcs; exact absurd rfl hcs
    -- what is listed is what the selection finds
    have listed : ∀ p, p ∈ (pods.map (·.2)).filter (selected a w.obs) ↔ (pods.get p.key).filter (selected a w.obs) = some p := by
      intro p
      rw [List.mem_filter, Option.filter_eq_some_iff, List.mem_map]
      constructor
      · rintro ⟨⟨e, he, rfl⟩, hs⟩
        have hk := hp.2 e he
        rw [hk]
        exact ⟨GoMap.get_of_mem hp.1 he, hs⟩
      · rintro ⟨hg, hs⟩
        exact ⟨⟨(p.key, p), GoMap.mem_of_get hg, rfl⟩, hs⟩
    have absent : ∀ k, k ∉ ((pods.map (·.2)).filter (selected a w.obs)).map Pod.key →
        (pods.get k).filter (selected a w.obs) = none := by
      intro k hk
      cases hf : (pods.get k).filter (selected a w.obs) with
      | none => rfl
      | some p =>
        have hg : pods.get k = some p := by rw [Option.filter_eq_some_iff] at hf; exact hf.1
        have := get_key hp hg
        subst this
        exact absurd (List.mem_map.2 ⟨p, (listed p).2 hf, rfl⟩) hk
    have hmiss : (w.store.map (·.1)).filter (fun k => !(((pods.map (·.2)).filter (selected a w.obs)).map Pod.key).contains k
        && !Cluster.endsLast w.queue k) = [] := by
      rw [List.filter_eq_nil_iff]
      intro k hk hb
      simp only [Bool.and_eq_true, Bool.not_eq_true', List.contains_eq_mem, decide_eq_false_iff_not] at hb
      rcases h with h | ⟨-, hst, -⟩
      · have he := h.agree k
        rw [absent k hb.1] at he
        have hsome : (w.store.get k).isSome := (GoMap.mem_keys_iff _ _).1 hk
        unfold expected at he
        have hends := hb.2
        unfold Cluster.endsLast at hends
        split at he
        · cases he
        · next c hx hl =>
          rw [hl] at hends
          simp only at hends
          cases c with
          | upd p => exact hx p rfl
          | del p => cases hends
          | gone k => cases hends
        · rw [he] at hsome; cases hsome
      · rw [hst] at hk; cases hk
    have hold : ∀ k, (pods.get k).filter (selected a w.obs) = none → expected w k = none := by
      intro k hk
      rcases h with h | ⟨-, hst, hq⟩
      · rw [h.agree, hk]
      · unfold expected; rw [hst, hq]; rfl
    dsimp only
    rw [hmiss]
    refine ⟨?_, ?_⟩
    · intro k
      show expected { w with connected := true, queue := _ } k = (pods.get k).filter (selected a w.obs)
      unfold expected
      simp only [List.map_nil, List.append_nil, List.filter_append, List.getLast?_append]
      cases hl : (((((pods.map (·.2)).filter (selected a w.obs)).map Change.upd)).filter (fun c => c.key == k)).getLast? with
      | none =>
        have hnil := List.getLast?_eq_none_iff.1 hl
        have hk : k ∉ ((pods.map (·.2)).filter (selected a w.obs)).map Pod.key := by
          intro hm
          obtain ⟨p, h1, h2⟩ := List.mem_map.1 hm
          rw [List.filter_eq_nil_iff] at hnil
          exact hnil (.upd p) (List.mem_map.2 ⟨p, h1, rfl⟩) (by simpa [Change.key] using h2)
        have := hold k (absent k hk)
        rw [absent k hk]
        simp only [Option.none_or]
        exact this
      | some c =>
        have hm := List.mem_of_getLast? hl
        rw [List.mem_filter] at hm
        obtain ⟨p, h1, rfl⟩ := List.mem_map.1 hm.1
        have hk : p.key = k := by simpa [Change.key] using hm.2
        simp only [Option.some_or]
        have := (listed p).1 h1
        rw [hk] at this
        exact this.symm
    · intro k hm
      simp only [List.map_nil, List.append_nil, List.mem_append, List.mem_map, reduceCtorEq, and_false, exists_false,
        or_false] at hm
      rcases h with h | ⟨-, -, hq⟩
      · exact h.sure k hm
      · rw [hq] at hm; cases hm

theorem pop_split {k : Key} {q q' : List Change} {c : Change} (h : Cluster.pop k q = some (c, q')) :
    c.key = k ∧ (q.filter (fun c => c.key == k) = c :: q'.filter (fun c => c.key == k)) ∧
    ∀ k', k' ≠ k → q.filter (fun c => c.key == k') = q'.filter (fun c => c.key == k') := by
  induction q generalizing q' with
  | nil => cases h
  | cons y ys ih =>
    unfold Cluster.pop at h
    split at h
    · next hy =>
      injection h with h
      injection h with h1 h2
      subst h1 h2
      refine ⟨hy, by simp [hy], ?_⟩
      intro k' hk
      have : ¬ y.key = k' := by rw [hy]; exact fun e => hk e.symm
      simp [this]
    · next hy =>
      split at h
      · cases h
      · next d ds hd =>
        injection h with h
        injection h with h1 h2
        subst h1 h2
        obtain ⟨g1, g2, g3⟩ := ih hd
        refine ⟨g1, by simp [hy, g2], ?_⟩
        intro k' hk
        simp only [List.filter_cons, g3 k' hk]

theorem sync_handle {pods : GoMap Key Pod} {w w' : Watcher} (h : Sync a pods w ∨ Blank w)
    {cri : Option (List Topology.CriContainer)} {k : Key} (hh : w.handle cri k = some w') :
    Sync a pods w' ∨ Blank w' := by
  have hpop : Blank w → Cluster.pop k w.queue = none := by rintro ⟨-, -, hq⟩; rw [hq]; rfl
  have step : ∀ (c : Change) (q : List Change) (st : GoMap Key Pod) (n : Topology.Note), Cluster.pop k w.queue = some (c, q) →
      GoMap.get st k = (match c with | .upd p => some p | _ => none) → (∀ k', k' ≠ k → GoMap.get st k' = w.store.get k') →
      Sync a pods (({ w with store := st, queue := q } : Watcher).note n) ∨
      Blank (({ w with store := st, queue := q } : Watcher).note n) := by
    intro c q st n hq hst hst'
    rcases h with h | h
    · left
      obtain ⟨g1, g2, g3⟩ := pop_split hq
      refine ⟨?_, fun k' hm => h.sure k' ((pop_mem hq).2 _ hm)⟩
      intro k'
      show expected { w with store := st, queue := q } k' = (pods.get k').filter (selected a w.obs)
      rw [← h.agree]
      unfold expected
      by_cases e : k' = k
      · subst e
        simp only [g2]
        cases hf : q.filter (fun c => c.key == k') with
        | nil => simp only [List.getLast?_nil, List.getLast?_singleton, hst]; cases c <;> rfl
        | cons d ds =>
          simp only [List.getLast?_cons_cons]
          cases hl : (d :: ds).getLast? with
          | none => simp at hl
          | some x => cases x <;> rfl
      · simp only [g3 k' e, hst' k' e]
    · rw [hpop h] at hq; cases hq
  unfold Watcher.handle at hh
  split at hh
  · injection hh with hh; subst hh; exact h
  · next p q hq =>
    injection hh with hh
    subst hh
    exact step _ q _ _ hq (GoMap.get_set_same _ _ _) (fun k' hk => GoMap.get_set_other _ _ (fun e => hk e.symm))
  · next p q hq =>
    injection hh with hh
    subst hh
    exact step _ q _ _ hq (GoMap.get_del_same _ _) (fun k' hk => GoMap.get_del_other _ (fun e => hk e.symm))
  · cases hh

theorem mem_watcher {s : Site} {i : Option Nat} {w : Watcher} (h : watcher s i = some w) : w ∈ s.hub :: s.jobs := by
  cases i with
  | none => injection h with h; subst h; exact List.mem_cons_self
  | some p => exact List.mem_cons_of_mem _ (List.mem_of_getElem? h)

theorem sync_run {ops : List Op} {s s' : Site} (h : run a tbl crc srt s ops = some s') (hc : Calm a tbl crc srt s ops)
    (hp : PodsOK s.pods) (hw : ∀ i w, watcher s i = some w → Sync a s.pods w ∨ Blank w) :
    PodsOK s'.pods ∧ ∀ i w, watcher s' i = some w → Sync a s'.pods w ∨ Blank w := by
  induction ops generalizing s with
  | nil => injection h with h; subst h; exact ⟨hp, hw⟩
  | cons op ops ih =>
    unfold run at h
    split at h
    · cases h
    · next s1 out h1 =>
      obtain ⟨hc1, hc2⟩ := hc
      refine ih h (hc2 _ _ h1) (podsOK_step h1 hp) ?_
      intro i w' hw'
      rcases turn_step h1 hw' with ⟨w, g1, ht⟩ | ⟨-, ⟨o, rfl⟩, -⟩
      · have hs := hw i w g1
        cases ht with
        | same ew ep et => rw [ew, ep]; exact hs
        | change k new hch hn hr ew ep et =>
          rw [ew, ep]
          cases hcon : w.connected with
          | true =>
            rcases hs with hs | hs
            · exact Or.inl (sync_hears hp hs hcon (fun p e => (hn p e).2))
            · rw [hs.1] at hcon; cases hcon
          | false =>
            right
            rcases hc1 hch w (mem_watcher g1) with e | ⟨e1, e2⟩
            · rw [hcon] at e; cases e
            · unfold Watcher.hears
              rw [if_neg (by rw [hcon]; simp)]
              exact ⟨hcon, e1, e2⟩
        | lose ew ep et =>
          rw [ew, ep]
          rcases hs with hs | hs
          · exact Or.inl ⟨hs.agree, hs.sure⟩
          · exact Or.inr ⟨rfl, hs.2⟩
        | list ew ep et => rw [ew, ep]; exact sync_list hp hs
        | handle k ew ep et => rw [ep]; exact sync_handle hs ew
        | tell ev hch ew ep et =>
          rw [ew, ep]
          rcases hs with hs | hs
          · exact Or.inl ⟨hs.agree, hs.sure⟩
          · exact Or.inr hs
      · exact Or.inr ⟨rfl, rfl, rfl⟩

theorem sync_fresh {ops : List Op} {s : Site} {o : Topology.Observer} (h : run a tbl crc srt (fresh tbl o) ops = some s)
    (hc : Calm a tbl crc srt (fresh tbl o) ops) :
    PodsOK s.pods ∧ ∀ i w, watcher s i = some w → Sync a s.pods w ∨ Blank w := by
  refine sync_run h hc ⟨GoMap.nodupKeys_nil, fun e he => by cases he⟩ ?_
  intro i w hw
  cases i with
  | none => injection hw with hw; subst hw; exact Or.inr ⟨rfl, rfl, rfl⟩
  | some p => cases hw

/-! ### What is said about a container that is there all the time -/

theorem resident_more {c : Topology.Container} {ns : Int} (hc : c.pidns = ns) (hpos : 0 < ns) (E : List (Option Topology.Event))
    (L : List Topology.Container) (hL : ∀ c' ∈ L, c'.pidns = ns → c' = c) {t : Int} (ht : t = 0 ∨ t = 1) :
    Spec.Topology.resident (E ++ L.map (fun c => some ⟨t, some c⟩)) ns =
      if c ∈ L then (if t = 0 then some c else none) else Spec.Topology.resident E ns := by
  have hB : ∀ x ∈ ((L.map (fun c => (some ⟨t, some c⟩ : Option Topology.Event))).filterMap Spec.Topology.meaning).filter
      (fun m => m.2.pidns = ns), x = (decide (t = 0), c) ∧ c ∈ L := by
    intro x hx
    rw [List.mem_filter, List.mem_filterMap] at hx
    obtain ⟨⟨e, he, hm⟩, hn⟩ := hx
    obtain ⟨c', h1, rfl⟩ := List.mem_map.1 he
    have : x = (decide (t = 0), c') := by
      unfold Spec.Topology.meaning at hm
      rcases ht with rfl | rfl <;> simp at hm <;> simp [← hm.2]
    subst this
    simp only [decide_eq_true_eq] at hn
    have := hL c' h1 hn
    subst this
    exact ⟨rfl, h1⟩
  have hmem : c ∈ L → (decide (t = 0), c) ∈ ((L.map (fun c => (some ⟨t, some c⟩ : Option Topology.Event))).filterMap
      Spec.Topology.meaning).filter (fun m => m.2.pidns = ns) := by
    intro h
    rw [List.mem_filter, List.mem_filterMap]
    refine ⟨⟨_, List.mem_map.2 ⟨c, h, rfl⟩, ?_⟩, by simp [hc]⟩
    unfold Spec.Topology.meaning
    rcases ht with rfl | rfl <;> simp [hc, hpos]
  unfold Spec.Topology.resident
  rw [List.filterMap_append, List.filter_append, List.getLast?_append]
  cases hl : (((L.map (fun c => (some ⟨t, some c⟩ : Option Topology.Event))).filterMap Spec.Topology.meaning).filter
      (fun m => m.2.pidns = ns)).getLast? with
  | none =>
    have hnil := List.getLast?_eq_none_iff.1 hl
    rw [if_neg (fun h => by have := hmem h; rw [hnil] at this; cases this)]
    rfl
  | some x =>
    obtain ⟨rfl, hcl⟩ := hB x (List.mem_of_getLast? hl)
    rw [if_pos hcl]
    simp only [Option.some_or]
    rcases ht with rfl | rfl <;> rfl

def said (s : Site) (i : Option Nat) (w : Watcher) : List (Option Topology.Event) := told s i ++ w.chan.map some

/-- The runtime lists the container, and no other in its pid namespace. -/
def Lists (cc : Topology.CriContainer) (cri : Option (List Topology.CriContainer)) : Prop :=
  ∃ l, cri = some l ∧ cc ∈ l ∧ ∀ cc' ∈ l, cc'.pidns = cc.pidns → cc' = cc

structure Speaks (k : Key) (c : Topology.Container) (w : Watcher) (E : List (Option Topology.Event)) : Prop where
  known : Spec.Topology.resident E c.pidns = if (w.store.get k).isSome then some c else none
  phased : ∀ n l, w.phased.get n = some l → ∀ c' ∈ l, c'.pidns = c.pidns → c' = c ∧ n = Topology.podKey ⟨k.2, k.1, ""⟩
  kept : ∀ l, w.phased.get (Topology.podKey ⟨k.2, k.1, ""⟩) = some l → c ∈ l

theorem lists_mem {cc : Topology.CriContainer} {k : Key} {c : Topology.Container} (hl : Lives cc k c)
    {cri : Option (List Topology.CriContainer)} (hcri : Lists cc cri) {p : Pod} :
    (∀ c' ∈ Topology.containersForPod p.view cri, c'.pidns = c.pidns → c' = c ∧ p.key = k) ∧
    (p.key = k → c ∈ Topology.containersForPod p.view cri) := by
  obtain ⟨l, rfl, hm, huniq⟩ := hcri
  constructor
  · intro c' hc' hns
    unfold Topology.containersForPod Topology.criContainers at hc'
    simp only [Option.map_some, Option.getD_some, List.mem_filterMap] at hc'
    obtain ⟨cc', h1, h2⟩ := hc'
    have hne : p.view.name ≠ "" ∧ p.view.ns ≠ "" := by
      unfold Topology.criOne at h2
      dsimp only at h2
      split at h2
      · cases h2
      · next hsk =>
        simp only [Bool.or_eq_true, beq_iff_eq, bne_iff_ne, ne_eq, not_or, Classical.not_not] at hsk
        exact ⟨by rw [hsk.2.1]; exact hsk.1.1, by rw [hsk.2.2]; exact hsk.1.2⟩
    obtain ⟨h3, pid, pidns, h4, h5, rfl⟩ := (Lemmas.Topology.criOne_some p.view cc' c' hne.1 hne.2).1 h2
    simp only at hns
    subst hns
    have hcc := huniq cc' h1 (by rw [h5, hl.pidns])
    subst hcc
    obtain ⟨o1, o2⟩ := hl.owned
    rw [h3.1] at o1
    rw [h3.2] at o2
    injection o1 with o1
    injection o2 with o2
    have hpid := hl.pid
    rw [h4] at hpid
    injection hpid with hpid
    refine ⟨?_, ?_⟩
    · rw [hl.same]
      simp only [o1, o2, hpid]
    · unfold Pod.key
      exact Prod.ext o2 o1
  · intro hk
    unfold Topology.containersForPod Topology.criContainers
    simp only [Option.map_some, Option.getD_some, List.mem_filterMap]
    subst hk
    exact ⟨cc, hm, (Lemmas.Topology.criOne_some p.view cc c hl.named.1 hl.named.2).2
      ⟨hl.owned, c.pid, c.pidns, hl.pid, hl.pidns, hl.same⟩⟩

theorem key_ne {p : Pod} {k : Key} (h : p.key ≠ k) (hp : '.' ∉ p.ns.toList) (hk : '.' ∉ k.1.toList) :
    Topology.podKey p.view ≠ Topology.podKey ⟨k.2, k.1, ""⟩ := by
  intro e
  apply h
  have := Lemmas.Topology.podKey_inj (a := (p.name, p.ns)) (b := (k.2, k.1)) hp hk e
  injection this with h1 h2
  exact Prod.ext h2 h1

theorem note_phased (w : Watcher) (n : Topology.Note) : (w.note n).phased = (Topology.observe w.phased n).1 := rfl
theorem note_chan (w : Watcher) (n : Topology.Note) : (w.note n).chan = w.chan ++ (Topology.observe w.phased n).2 := rfl
theorem note_store (w : Watcher) (n : Topology.Note) : (w.note n).store = w.store := rfl

theorem speaks_handle {cc : Topology.CriContainer} {k : Key} {c : Topology.Container} (hl : Lives cc k c)
    (hk : '.' ∉ k.1.toList) {cri : Option (List Topology.CriContainer)} (hcri : Lists cc cri) {w w' : Watcher}
    {T : List (Option Topology.Event)} (h : Speaks k c w (T ++ w.chan.map some))
    (hq : ∀ p, (.upd p ∈ w.queue ∨ .del p ∈ w.queue) → '.' ∉ p.ns.toList) {k' : Key} (hh : w.handle cri k' = some w') :
    Speaks k c w' (T ++ w'.chan.map some) := by
  have same : ∀ p : Pod, p.key = k → Topology.podKey p.view = Topology.podKey ⟨k.2, k.1, ""⟩ := by
    rintro p rfl; rfl
  have said : ∀ (L : List Topology.Container) (t : Int),
      (T ++ (w.chan ++ L.map (fun c => (⟨t, some c⟩ : Topology.Event))).map some) =
        (T ++ w.chan.map some) ++ L.map (fun c => some ⟨t, some c⟩) := by
    intro L t
    simp [List.map_append, Function.comp_def]
  unfold Watcher.handle at hh
  split at hh
  · injection hh with hh; subst hh; exact h
  · next p q hpop =>
    obtain ⟨hpk, -, -⟩ := pop_split hpop
    have hpk : p.key = k' := hpk
    have hdot := hq p (Or.inl (pop_mem hpop).1)
    injection hh with hh
    obtain ⟨hm1, hm2⟩ := lists_mem hl hcri (p := p)
    have st : ∀ n, ((({ w with store := w.store.set k' p, queue := q } : Watcher).note n).store.get k).isSome =
        (if p.key = k then true else (w.store.get k).isSome) := by
      intro n
      rw [note_store]
      simp only [GoMap.get_set, ← hpk]
      split <;> rfl
    subst hh
    split
    · next old hold =>
      -- updated
      refine ⟨?_, ?_, ?_⟩
      · rw [st, note_chan]
        simp only [Topology.observe]
        split
        · rw [said, resident_more rfl hl.pos _ _ (fun c' h1 h2 => (hm1 c' h1 h2).1) (t := Topology.typeStart) (Or.inl rfl)]
          by_cases e : p.key = k
          · rw [if_pos (hm2 e), if_pos e]; rfl
          · rw [if_neg (fun h1 => e (hm1 c h1 rfl).2), if_neg e, h.known]
        · rw [List.append_nil]
          by_cases e : p.key = k
          · rw [if_pos e, h.known]
            rw [← hpk, e] at hold
            rw [hold]; rfl
          · rw [if_neg e, h.known]
      · intro n l hn
        rw [note_phased] at hn
        simp only [Topology.observe] at hn
        split at hn
        · split at hn
          · exact h.phased n l hn
          · split at hn
            · rw [GoMap.get_set] at hn
              split at hn
              · next e =>
                injection hn with hn
                subst hn
                intro c' h1 h2
                obtain ⟨g1, g2⟩ := hm1 c' h1 h2
                exact ⟨g1, by rw [← e]; exact same p g2⟩
              · exact h.phased n l hn
            · exact h.phased n l hn
        · exact h.phased n l hn
      · intro l hn
        rw [note_phased] at hn
        simp only [Topology.observe] at hn
        split at hn
        · split at hn
          · exact h.kept l hn
          · split at hn
            · rw [GoMap.get_set] at hn
              split at hn
              · next e =>
                injection hn with hn
                subst hn
                apply hm2
                apply Classical.byContradiction
                intro hne
                exact key_ne hne hdot hk e
              · exact h.kept l hn
            · exact h.kept l hn
        · exact h.kept l hn
    · next hold =>
      -- added
      refine ⟨?_, h.phased, h.kept⟩
      rw [st, note_chan]
      simp only [Topology.observe]
      rw [said, resident_more rfl hl.pos _ _ (fun c' h1 h2 => (hm1 c' h1 h2).1) (t := Topology.typeStart) (Or.inl rfl)]
      by_cases e : p.key = k
      · rw [if_pos (hm2 e), if_pos e]; rfl
      · rw [if_neg (fun h1 => e (hm1 c h1 rfl).2), if_neg e, h.known]
  · next p q hpop =>
    obtain ⟨hpk, -, -⟩ := pop_split hpop
    have hpk : p.key = k' := hpk
    have hdot := hq p (Or.inr (pop_mem hpop).1)
    injection hh with hh
    obtain ⟨hm1, hm2⟩ := lists_mem hl hcri (p := p)
    have st : ∀ n, ((({ w with store := w.store.del k', queue := q } : Watcher).note n).store.get k).isSome =
        (if p.key = k then false else (w.store.get k).isSome) := by
      intro n
      rw [note_store]
      simp only [GoMap.get_del, ← hpk]
      split <;> rfl
    subst hh
    refine ⟨?_, ?_, ?_⟩
    · rw [st, note_chan]
      simp only [Topology.observe]
      split
      · next l hp =>
        by_cases e : p.key = k
        · rw [said, resident_more rfl hl.pos _ _ (fun c' h1 h2 => (h.phased _ l hp c' h1 h2).1) (t := Topology.typeStop) (Or.inr rfl),
            if_pos (h.kept l (by rw [← same p e]; exact hp)), if_pos e]
          rfl
        · rw [said, resident_more rfl hl.pos _ _ (fun c' h1 h2 => (h.phased _ l hp c' h1 h2).1) (t := Topology.typeStop) (Or.inr rfl),
            if_neg (fun h1 => key_ne e hdot hk (h.phased _ l hp c h1 rfl).2), if_neg e, h.known]
      · rw [said, resident_more rfl hl.pos _ _ (fun c' h1 h2 => (hm1 c' h1 h2).1) (t := Topology.typeStop) (Or.inr rfl)]
        by_cases e : p.key = k
        · rw [if_pos (hm2 e), if_pos e]; rfl
        · rw [if_neg (fun h1 => e (hm1 c h1 rfl).2), if_neg e, h.known]
    · intro n l hn
      rw [note_phased] at hn
      simp only [Topology.observe] at hn
      split at hn
      · rw [GoMap.get_del] at hn
        split at hn
        · cases hn
        · exact h.phased n l hn
      · exact h.phased n l hn
    · intro l hn
      rw [note_phased] at hn
      simp only [Topology.observe] at hn
      split at hn
      · rw [GoMap.get_del] at hn
        split at hn
        · cases hn
        · exact h.kept l hn
      · exact h.kept l hn
  · cases hh

theorem cri_step {s s' : Site} {op : Op} {out : List Daemon.Delivery} (hs : step a tbl crc srt s op = some (s', out)) :
    s'.cri = s.cri ∨ ∃ l, op = .runtime l ∧ s'.cri = l := by
  have sv : ∀ {t : Site} {x : Service.Op}, serve tbl crc srt t x = some (s', out) → t.cri = s.cri → s'.cri = s.cri := by
    intro t x h e
    unfold serve at h
    rw [Option.map_eq_some_iff] at h
    obtain ⟨⟨v, out'⟩, g1, g2⟩ := h
    injection g2 with g2 g3
    rw [← g2]; exact e
  have ob : ∀ {w f}, observer s w f = some s' → s'.cri = s.cri := by
    intro w f ho
    unfold observer at ho
    repeat' split at ho
    all_goals first
      | (rw [Option.map_eq_some_iff] at ho; obtain ⟨y, -, rfl⟩ := ho; rfl)
      | (injection ho with ho; subst ho; rfl)
  cases op with
  | put p => simp only [step, Option.some.injEq, Prod.mk.injEq] at hs; obtain ⟨rfl, -⟩ := hs; exact Or.inl rfl
  | remove k => simp only [step, Option.some.injEq, Prod.mk.injEq] at hs; obtain ⟨rfl, -⟩ := hs; exact Or.inl rfl
  | runtime l =>
    simp only [step, Option.some.injEq, Prod.mk.injEq] at hs
    obtain ⟨rfl, -⟩ := hs
    exact Or.inr ⟨l, rfl, rfl⟩
  | lose w =>
    simp only [step, Option.map_eq_some_iff, Prod.mk.injEq] at hs
    obtain ⟨y, h1, rfl, -⟩ := hs
    exact Or.inl (ob h1)
  | list w =>
    simp only [step, Option.map_eq_some_iff, Prod.mk.injEq] at hs
    obtain ⟨y, h1, rfl, -⟩ := hs
    exact Or.inl (ob h1)
  | handle w k =>
    simp only [step, Option.map_eq_some_iff, Prod.mk.injEq] at hs
    obtain ⟨y, h1, rfl, -⟩ := hs
    exact Or.inl (ob h1)
  | tell w =>
    left
    cases w with
    | none =>
      simp only [step] at hs
      split at hs
      · injection hs with hs; injection hs with hs; subst hs; rfl
      · exact sv hs rfl
    | some p =>
      simp only [step] at hs
      repeat' split at hs
      all_goals first
        | (injection hs with hs; injection hs with hs; subst hs; rfl)
        | exact sv hs rfl
  | create ns sel q u ok b => simp only [step] at hs; exact Or.inl (sv hs rfl)
  | service x =>
    left
    simp only [step] at hs
    repeat' split at hs
    all_goals first
      | (injection hs with hs; injection hs with hs; subst hs; rfl)
      | exact sv hs rfl

theorem speaks_new (k : Key) (c : Topology.Container) (o : Topology.Observer) : Speaks k c (Watcher.new o) [] :=
  ⟨rfl, (fun n l h => by cases h), (fun l h => by cases h)⟩

theorem speaks_run {cc : Topology.CriContainer} {k : Key} {c : Topology.Container} (hl : Lives cc k c)
    (hk : '.' ∉ k.1.toList) {o : Topology.Observer} {all ops : List Op} {s s' : Site}
    (h : run a tbl crc srt s ops = some s') (hi : Inv a tbl crc srt o all s)
    (hlen : s.sels.length = s.service.bodies.length) (hsub : ∀ op ∈ ops, op ∈ all)
    (hlist : ∀ x, .runtime x ∈ all → Lists cc x) (hdot : Dotless all) (hcri : Lists cc s.cri)
    (hw : ∀ i w, watcher s i = some w → Speaks k c w (said s i w)) :
    ∀ i w, watcher s' i = some w → Speaks k c w (said s' i w) := by
  induction ops generalizing s with
  | nil => injection h with h; subst h; exact hw
  | cons op ops ih =>
    unfold run at h
    split at h
    · cases h
    · next s1 out h1 =>
      have g := asked_step h1
      have hl1 : s1.sels.length = s1.service.bodies.length := by rw [g.1, g.2]; simp [hlen]
      have hi1 := inv_step hi hlen (hsub op (by simp)) h1
      refine ih h hi1 hl1 (fun x hx => hsub x (List.mem_cons_of_mem _ hx)) ?_ ?_
      · rcases cri_step h1 with e | ⟨l, rfl, e⟩
        · rw [e]; exact hcri
        · rw [e]; exact hlist l (hsub _ (by simp))
      · intro i w' hw'
        rcases turn_step h1 hw' with ⟨w, g1, ht⟩ | ⟨g1, ⟨ob, rfl⟩, g3⟩
        · have hs := hw i w g1
          unfold said at hs ⊢
          have winv : WInv a all w := by
            cases i with
            | none => injection g1 with g1; subst g1; exact hi.hub
            | some p => exact hi.jobs w (List.mem_of_getElem? g1)
          cases ht with
          | same ew ep et => rw [ew, et]; exact hs
          | change k' new hch hn hr ew ep et =>
            rw [ew, et]
            unfold Watcher.hears
            repeat' split
            all_goals first
              | exact hs
              | exact ⟨hs.known, hs.phased, hs.kept⟩
          | lose ew ep et => rw [ew, et]; exact ⟨hs.known, hs.phased, hs.kept⟩
          | list ew ep et =>
            rw [ew, et]
            unfold Watcher.list
            split
            · exact hs
            · exact ⟨hs.known, hs.phased, hs.kept⟩
          | handle k' ew ep et =>
            rw [et]
            exact speaks_handle hl hk hcri hs (fun p hp => hdot p (winv.queue p hp).1) ew
          | tell ev hch ew ep et =>
            rw [et]
            have e : told s i ++ [some ev] ++ w'.chan.map some = told s i ++ w.chan.map some := by
              rw [hch]; simp
            rw [e, ew]
            exact ⟨hs.known, hs.phased, hs.kept⟩
        · have hnil : told s i = [] := by
            cases i with
            | none => cases g1
            | some p =>
              unfold told
              rw [List.filterMap_eq_nil_iff]
              intro x hx
              cases x with
              | notice q ev =>
                obtain ⟨z, e, c, e1, -⟩ := hi.told q ev hx
                by_cases e2 : q = p
                · subst e2
                  simp only [watcher] at g1
                  rw [g1] at e1; cases e1
                · simp [e2]
              | _ => rfl
          unfold said
          rw [g3, hnil]
          exact speaks_new k c ob

theorem settled {w : Watcher} {pods : GoMap Key Pod} (h : Sync a pods w ∨ Blank w) {k : Key} (hc : CaughtUp w k) :
    w.store.get k = (pods.get k).filter (selected a w.obs) := by
  rcases h with h | h
  · rw [← h.agree]
    unfold expected
    have : w.queue.filter (fun c => c.key == k) = [] := by
      rw [List.filter_eq_nil_iff]
      intro x hx e
      exact hc.2.1 x hx (by simpa using e)
    rw [this]; rfl
  · have := hc.1; rw [h.1] at this; cases this

/-- The topology events of the daemon's history are those of the server's. -/
theorem notices_run {x : Service.Service} {xs : List Service.Op} {y : Service.Service}
    (h : Service.run tbl crc srt x xs = some y) :
    y.log.filterMap Spec.Daemon.notice = x.log.filterMap Spec.Daemon.notice ++
      xs.filterMap (fun o => match o with | .outside (.topo ev) => some ev | _ => none) := by
  induction xs generalizing x with
  | nil => injection h with h; subst h; simp
  | cons o os ih =>
    obtain ⟨x1, out, h1, h2⟩ := run_cons_some h
    have hq : ∀ d : Daemon.Op, (∀ ev, d ≠ .topo ev) → [d].filterMap Spec.Daemon.notice = [] := by
      intro d hd
      cases d with
      | topo ev => exact absurd rfl (hd ev)
      | _ => rfl
    have key : x1.log.filterMap Spec.Daemon.notice = x.log.filterMap Spec.Daemon.notice ++
        [o].filterMap (fun o => match o with | .outside (.topo ev) => some ev | _ => none) := by
      have hm := step_moves h1
      cases hm with
      | outside d dm out ho hd =>
        rw [List.filterMap_append]
        cases d with
        | topo ev => rfl
        | _ => rfl
      | idle op =>
        cases o with
        | outside d =>
          cases d with
          | topo ev =>
            exfalso
            simp only [Service.step, Service.isOutside, if_true, Service.perform, Option.map_eq_some_iff] at h1
            obtain ⟨r, -, g⟩ := h1
            injection g with g
            have := congrArg (fun z => z.log.length) g
            simp at this
          | _ => simp
        | _ => simp
      | handleDelete i t j d out ht hp hd => rw [List.filterMap_append, hq _ (fun ev e => by cases e)]; rfl
      | work p f pr act rest d dm out hp ht ha hd =>
        rw [List.filterMap_append, hq]
        · rfl
        · intro ev e
          subst e
          cases act <;> simp [Service.actOp] at ha
      | attach k draw se d out hk ht hd =>
        rw [List.filterMap_append, hq]
        · rfl
        · intro ev e
          cases hw : se.watch <;> rw [hw] at e <;> cases e
      | hangJob k fails se t id d out hk ht ho hc hw hd =>
        rw [List.filterMap_append, hq _ (fun ev e => by cases e)]; rfl
      | _ => simp
    rw [ih h2, key, List.append_assoc, ← List.filterMap_append]
    rfl

end Swoll.Lemmas.SiteSync
