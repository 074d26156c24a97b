import Verif.Spec.Hub
import Verif.Util.ListX
namespace Swoll.Lemmas.Hub
open Swoll.Filter hiding Op step run
open Swoll Swoll.Syscalls Swoll.Hub Swoll.Spec.Hub

abbrev NsMap := GoMap Int (GoMap Int (List Ctx))

def findIn (m : NsMap) (ns nr : Int) : Option (List Ctx) :=
  match GoMap.get m ns with
  | some tbl => GoMap.get tbl nr
  | none => none

theorem find_eq (h : Hub) (ns nr : Int) : findJobList h ns nr = findIn h.nsmap ns nr := rfl

theorem find_put (m : NsMap) (ns nr ns' nr' : Int) (l : List Ctx) :
    findIn (putList m ns nr l) ns' nr' = if ns = ns' ∧ nr = nr' then some l else findIn m ns' nr' := by
  unfold findIn putList
  rw [GoMap.get_set]
  by_cases h1 : ns = ns'
  · subst h1
    simp only [if_pos trivial, true_and]
    rw [GoMap.get_set]
    by_cases h2 : nr = nr'
    · simp [h2]
    · simp only [h2, if_false]
      cases GoMap.get m ns <;> simp
  · simp [h1]

theorem find_clear (m : NsMap) (ns nr ns' nr' : Int) :
    findIn (clearJobList m ns nr) ns' nr' = if ns = ns' ∧ nr = nr' then none else findIn m ns' nr' := by
  unfold findIn clearJobList
  cases hg : GoMap.get m ns with
  | none =>
    by_cases h : ns = ns' ∧ nr = nr'
    · simp [h.1 ▸ hg, h]
    · simp [h]
  | some tbl =>
    simp only [GoMap.get_set]
    by_cases h1 : ns = ns'
    · subst h1
      simp only [if_pos trivial, true_and, GoMap.get_del, hg]
    · simp [h1]

theorem find_delNs (m : NsMap) (ns ns' nr' : Int) (h : ((GoMap.get m ns).getD []).length = 0) :
    findIn (GoMap.del m ns) ns' nr' = findIn m ns' nr' := by
  unfold findIn
  rw [GoMap.get_del]
  by_cases h1 : ns = ns'
  · subst h1
    cases hg : GoMap.get m ns with
    | none => simp
    | some tbl =>
      rw [hg] at h
      have : tbl = [] := List.length_eq_zero_iff.1 (by simpa using h)
      simp [this]
  · simp [h1]

/-- nil for the empty list. -/
def ne (l : List Ctx) : Option (List Ctx) := if l = [] then none else some l

theorem ne_getD (l : List Ctx) : (ne l).getD [] = l := by
  unfold ne; split <;> simp_all

theorem ne_some {l l' : List Ctx} (h : ne l = some l') : l' = l ∧ l ≠ [] := by
  unfold ne at h; split at h
  · cases h
  · injection h with h; exact ⟨h.symm, by assumption⟩

theorem ne_none {l : List Ctx} (h : ne l = none) : l = [] := by
  unfold ne at h; split at h
  · assumption
  · cases h

def pairOf (R : List Ctx) (ns nr : Int) : List Ctx := R.filter (fun c => decide (c.ns = ns ∧ c.nr = nr))
def idOf (R : List Ctx) (id : String) : List Ctx := R.filter (fun c => decide (c.job.id = id))

/-- The namespace index holds exactly the contexts `R`. -/
structure NsOK (m : NsMap) (R : List Ctx) : Prop where
  find : ∀ ns nr, findIn m ns nr = ne (pairOf R ns nr)
  full : ∀ ns tbl, GoMap.get m ns = some tbl → tbl ≠ []

/-- The hub holds exactly the contexts `R`, in order of registration. -/
structure Inv (h : Hub) (R : List Ctx) : Prop where
  ns : NsOK h.nsmap R
  id : ∀ id, GoMap.get h.idmap id = ne (idOf R id)
  nodup : (R.map (·.cid)).Nodup
  fresh : ∀ c ∈ R, c.cid < h.next

theorem inv_init (m : KMaps) : Inv (Hub.init m) [] := by
  constructor
  · constructor
    · intro ns nr; rfl
    · intro ns tbl h; cases h
  · intro id; rfl
  · simp
  · simp

theorem full_put {m : NsMap} (hf : ∀ ns tbl, GoMap.get m ns = some tbl → tbl ≠ []) (ns nr : Int) (l : List Ctx) :
    ∀ ns' tbl, GoMap.get (putList m ns nr l) ns' = some tbl → tbl ≠ [] := by
  intro ns' tbl h
  unfold putList at h
  rw [GoMap.get_set] at h
  by_cases h1 : ns = ns'
  · rw [if_pos h1] at h
    injection h with h
    rw [← h]; simp [GoMap.set]
  · rw [if_neg h1] at h; exact hf _ _ h

theorem inv_push {h : Hub} {R : List Ctx} (hi : Inv h R) (j : Job) (ns nr : Int) :
    Inv (pushJob h j ns nr) (R ++ [⟨h.next, j, ns, nr⟩]) := by
  refine ⟨⟨?_, ?_⟩, ?_, ?_, ?_⟩
  · intro ns' nr'
    unfold pushJob
    dsimp only
    rw [find_put, find_eq, hi.ns.find, hi.ns.find, ne_getD]
    unfold pairOf
    rw [List.filter_append]
    by_cases he : ns = ns' ∧ nr = nr'
    · obtain ⟨rfl, rfl⟩ := he
      simp [ne]
    · rw [if_neg he]
      simp only [List.filter_cons, List.filter_nil]
      rw [if_neg (by simpa using he), List.append_nil]
  · exact full_put hi.ns.full _ _ _
  · intro id'
    unfold pushJob
    dsimp only
    rw [GoMap.get_set, hi.id, hi.id, ne_getD]
    unfold idOf
    rw [List.filter_append]
    by_cases he : j.id = id'
    · subst he; simp [ne]
    · rw [if_neg he]
      simp only [List.filter_cons, List.filter_nil]
      rw [if_neg (by simpa using he), List.append_nil]
  · rw [List.map_append, List.nodup_append]
    refine ⟨hi.nodup, by simp, ?_⟩
    intro a ha b hb
    obtain ⟨c, hc, rfl⟩ := List.mem_map.1 ha
    simp at hb; subst hb
    have := hi.fresh c hc
    omega
  · intro c hc
    rw [List.mem_append] at hc
    show c.cid < h.next + 1
    rcases hc with hc | hc
    · have := hi.fresh c hc; omega
    · simp at hc; subst hc; exact Nat.lt_succ_self _

/-- Contexts other than `c`. -/
def without (R : List Ctx) (c : Ctx) : List Ctx := R.filter (fun x => x.cid ≠ c.cid)

theorem pairOf_without (R : List Ctx) (c : Ctx) (ns nr : Int) :
    pairOf (without R c) ns nr = removeElem (pairOf R ns nr) c := by
  unfold pairOf without removeElem
  rw [List.filter_filter, List.filter_filter]
  apply List.filter_congr
  intro x _
  exact Bool.and_comm _ _

theorem idOf_without (R : List Ctx) (c : Ctx) (id : String) :
    idOf (without R c) id = removeElem (idOf R id) c := by
  unfold idOf without removeElem
  rw [List.filter_filter, List.filter_filter]
  apply List.filter_congr
  intro x _
  exact Bool.and_comm _ _

theorem mem_pairOf {R : List Ctx} {c : Ctx} (h : c ∈ R) : c ∈ pairOf R c.ns c.nr := by
  unfold pairOf; rw [List.mem_filter]; simp [h]

theorem eq_of_cid {R : List Ctx} (hn : (R.map (·.cid)).Nodup) {x c : Ctx} (hx : x ∈ R) (hc : c ∈ R)
    (h : x.cid = c.cid) : x = c := ListX.inj_on_of_nodup_map hn hx hc h

theorem pairOf_without_other {R : List Ctx} (hn : (R.map (·.cid)).Nodup) {c : Ctx} (hc : c ∈ R) {ns nr : Int}
    (h : ¬ (c.ns = ns ∧ c.nr = nr)) : pairOf (without R c) ns nr = pairOf R ns nr := by
  rw [pairOf_without]
  unfold removeElem
  rw [List.filter_eq_self]
  intro x hx
  unfold pairOf at hx
  rw [List.mem_filter] at hx
  have hx2 : x.ns = ns ∧ x.nr = nr := by simpa using hx.2
  simp only [ne_eq, decide_not, Bool.not_eq_true', decide_eq_false_iff_not]
  intro he
  have := eq_of_cid hn hx.1 hc he
  subst this
  exact h hx2

/-- One round of the deletion loop. -/
theorem delete_round (tbl : Syscalls) (id : String) (h : Hub) (R : List Ctx) (c : Ctx)
    (hns : NsOK h.nsmap R) (hnd : (R.map (·.cid)).Nodup) (hc : c ∈ R) :
    NsOK (deleteOne tbl id h c).nsmap (without R c) ∧
    (deleteOne tbl id h c).idmap = GoMap.set h.idmap id (removeElem ((GoMap.get h.idmap id).getD []) c) ∧
    (deleteOne tbl id h c).next = h.next ∧ (deleteOne tbl id h c).sampled = h.sampled ∧
    (deleteOne tbl id h c).maps =
      (if pairOf (without R c) c.ns c.nr = [] then (removeSyscall tbl h.maps (.int c.nr) c.ns).1 else h.maps) := by
  have hfind : findJobList h c.ns c.nr = some (pairOf R c.ns c.nr) := by
    rw [find_eq, hns.find]
    unfold ne
    rw [if_neg (List.ne_nil_of_mem (mem_pairOf hc))]
  have hl : removeElem (pairOf R c.ns c.nr) c = pairOf (without R c) c.ns c.nr := (pairOf_without R c _ _).symm
  have hother : ∀ ns nr, ¬ (c.ns = ns ∧ c.nr = nr) → ne (pairOf R ns nr) = ne (pairOf (without R c) ns nr) :=
    fun ns nr hx => by rw [pairOf_without_other hnd hc hx]
  have hfull := full_put hns.full c.ns c.nr (pairOf (without R c) c.ns c.nr)
  unfold deleteOne
  rw [hfind]
  dsimp only
  rw [hl]
  by_cases hempty : pairOf (without R c) c.ns c.nr = []
  · rw [hempty]
    simp only [List.length_nil, ↓reduceIte]
    have hfC : ∀ ns nr, findIn (clearJobList (putList h.nsmap c.ns c.nr []) c.ns c.nr) ns nr =
        ne (pairOf (without R c) ns nr) := by
      intro ns nr
      rw [find_clear, find_put]
      by_cases hx : c.ns = ns ∧ c.nr = nr
      · rw [if_pos hx, ← hx.1, ← hx.2, hempty]; rfl
      · rw [if_neg hx, if_neg hx, hns.find, hother _ _ hx]
    have hgetC : ∀ ns t, ns ≠ c.ns → GoMap.get (clearJobList (putList h.nsmap c.ns c.nr []) c.ns c.nr) ns = some t → t ≠ [] := by
      intro ns t hne hg
      unfold clearJobList at hg
      split at hg
      · rw [GoMap.get_set_other _ _ (Ne.symm hne)] at hg
        exact full_put hns.full _ _ _ _ _ hg
      · exact full_put hns.full _ _ _ _ _ hg
    split
    · rename_i hlen
      refine ⟨⟨?_, ?_⟩, rfl, rfl, rfl, by simp⟩
      · intro ns nr
        rw [find_delNs _ _ _ _ hlen]
        exact hfC ns nr
      · intro ns t hg
        dsimp only at hg
        rw [GoMap.get_del] at hg
        by_cases hx : c.ns = ns
        · simp [hx] at hg
        · rw [if_neg hx] at hg
          exact hgetC ns t (Ne.symm hx) hg
    · rename_i hlen
      refine ⟨⟨hfC, ?_⟩, rfl, rfl, rfl, by simp⟩
      intro ns t hg
      by_cases hx : ns = c.ns
      · subst hx
        dsimp only at hg hlen
        rw [hg] at hlen
        intro ht
        apply hlen
        simp [ht]
      · exact hgetC ns t hx hg
  · have hz : ¬ (pairOf (without R c) c.ns c.nr).length = 0 := by
      rw [List.length_eq_zero_iff]; exact hempty
    simp only [hz, ↓reduceIte]
    have hlen : ¬ ((GoMap.get (putList h.nsmap c.ns c.nr (pairOf (without R c) c.ns c.nr)) c.ns).getD []).length = 0 := by
      unfold putList
      rw [GoMap.get_set_same]
      simp [GoMap.set]
    rw [if_neg hlen]
    refine ⟨⟨?_, hfull⟩, rfl, rfl, rfl, by rw [if_neg hempty]⟩
    intro ns nr
    dsimp only
    rw [find_put]
    by_cases hx : c.ns = ns ∧ c.nr = nr
    · rw [if_pos hx, ← hx.1, ← hx.2]
      unfold ne; rw [if_neg hempty]
    · rw [if_neg hx, hns.find, hother _ _ hx]

/-- Removing the contexts `L` one after the other. -/
def withoutAll (R : List Ctx) : List Ctx → List Ctx
  | [] => R
  | c :: cs => withoutAll (without R c) cs

theorem withoutAll_eq (L : List Ctx) : ∀ R, withoutAll R L = R.filter (fun x => decide (∀ c ∈ L, x.cid ≠ c.cid)) := by
  induction L with
  | nil => intro R; simp only [withoutAll]; exact (List.filter_eq_self.2 (by simp)).symm
  | cons c cs ih =>
    intro R
    rw [withoutAll, ih, without, List.filter_filter]
    apply List.filter_congr
    intro x _
    rw [Bool.eq_iff_iff]
    simp only [ne_eq, decide_not, Bool.and_eq_true, decide_eq_true_eq, Bool.not_eq_true', decide_eq_false_iff_not,
      List.mem_cons, forall_eq_or_imp]
    exact And.comm

/-- Effect of the deletion loop on the kernel filter: the pairs whose last context goes. -/
def mapsAfter (tbl : Syscalls) : KMaps → List Ctx → List Ctx → KMaps
  | m, _, [] => m
  | m, R, c :: cs =>
    mapsAfter tbl (if pairOf (without R c) c.ns c.nr = [] then (removeSyscall tbl m (.int c.nr) c.ns).1 else m)
      (without R c) cs

theorem delete_loop (tbl : Syscalls) (id : String) : ∀ (L : List Ctx) (h : Hub) (R : List Ctx) (I : List Ctx),
    NsOK h.nsmap R → (R.map (·.cid)).Nodup → (L.map (·.cid)).Nodup → (∀ c ∈ L, c ∈ R) →
    GoMap.get h.idmap id = some I →
    NsOK (L.foldl (deleteOne tbl id) h).nsmap (withoutAll R L) ∧
    (∀ id', GoMap.get (L.foldl (deleteOne tbl id) h).idmap id' =
      if id' = id then some (withoutAll I L) else GoMap.get h.idmap id') ∧
    (L.foldl (deleteOne tbl id) h).next = h.next ∧ (L.foldl (deleteOne tbl id) h).sampled = h.sampled ∧
    (L.foldl (deleteOne tbl id) h).maps = mapsAfter tbl h.maps R L := by
  intro L
  induction L with
  | nil =>
    intro h R I hns _ _ _ hI
    refine ⟨hns, ?_, rfl, rfl, rfl⟩
    intro id'
    by_cases hx : id' = id
    · subst hx; simp [withoutAll, hI]
    · simp [hx]
  | cons c cs ih =>
    intro h R I hns hnd hL hmem hI
    obtain ⟨r1, r2, r3, r4, r5⟩ := delete_round tbl id h R c hns hnd (hmem c (by simp))
    rw [List.map_cons, List.nodup_cons] at hL
    have hnd' : ((without R c).map (·.cid)).Nodup :=
      List.Nodup.sublist ((List.filter_sublist).map _) hnd
    have hmem' : ∀ x ∈ cs, x ∈ without R c := by
      intro x hx
      unfold without
      rw [List.mem_filter]
      refine ⟨hmem x (by simp [hx]), ?_⟩
      have : x.cid ≠ c.cid := fun e => hL.1 (List.mem_map.2 ⟨x, hx, e⟩)
      simpa using this
    have hI' : GoMap.get (deleteOne tbl id h c).idmap id = some (without I c) := by
      rw [r2, GoMap.get_set_same, hI]; rfl
    obtain ⟨q1, q2, q3, q4, q5⟩ := ih (deleteOne tbl id h c) (without R c) (without I c) r1 hnd' hL.2 hmem' hI'
    refine ⟨q1, ?_, q3.trans r3, q4.trans r4, ?_⟩
    · intro id'
      show GoMap.get (cs.foldl (deleteOne tbl id) (deleteOne tbl id h c)).idmap id' = _
      rw [q2]
      by_cases hx : id' = id
      · simp [hx, withoutAll]
      · rw [if_neg hx, if_neg hx, r2, GoMap.get_set_other _ _ (Ne.symm hx)]
    · show (cs.foldl (deleteOne tbl id) (deleteOne tbl id h c)).maps = _
      rw [q5, r5]; rfl

theorem withoutAll_idOf {R : List Ctx} (hn : (R.map (·.cid)).Nodup) (id : String) :
    withoutAll R (idOf R id) = R.filter (fun c => decide (c.job.id ≠ id)) := by
  rw [withoutAll_eq]
  apply List.filter_congr
  intro x hx
  rw [Bool.eq_iff_iff]
  simp only [decide_eq_true_eq]
  unfold idOf
  constructor
  · intro h he
    exact h x (by rw [List.mem_filter]; exact ⟨hx, by simpa using he⟩) rfl
  · intro h c hc he
    rw [List.mem_filter] at hc
    have := eq_of_cid hn hx hc.1 he
    subst this
    exact h (by simpa using hc.2)

theorem withoutAll_self (L : List Ctx) : withoutAll L L = [] := by
  rw [withoutAll_eq, List.filter_eq_nil_iff]
  intro x hx
  simp only [decide_eq_true_eq]
  intro h
  exact h x hx rfl

theorem delete_spec (tbl : Syscalls) {h : Hub} {R : List Ctx} (hi : Inv h R) (id : String) :
    (idOf R id = [] ∧ deleteTrace tbl h id = .notFound) ∨
    (idOf R id ≠ [] ∧ ∃ h', deleteTrace tbl h id = .done h' ∧
      Inv h' (R.filter (fun c => decide (c.job.id ≠ id))) ∧
      h'.maps = mapsAfter tbl h.maps R (idOf R id) ∧ h'.sampled = h.sampled) := by
  have hget := hi.id id
  by_cases he : idOf R id = []
  · left
    refine ⟨he, ?_⟩
    unfold deleteTrace findJobListByID
    rw [hget, he]; rfl
  · right
    refine ⟨he, ?_⟩
    have hget' : GoMap.get h.idmap id = some (idOf R id) := by
      rw [hget]; unfold ne; rw [if_neg he]
    have hLn : ((idOf R id).map (·.cid)).Nodup := List.Nodup.sublist ((List.filter_sublist).map _) hi.nodup
    have hmem : ∀ c ∈ idOf R id, c ∈ R := fun c hc => (List.mem_filter.1 hc).1
    obtain ⟨q1, q2, q3, q4, q5⟩ := delete_loop tbl id (idOf R id) h R (idOf R id) hi.ns hi.nodup hLn hmem hget'
    unfold deleteTrace findJobListByID
    rw [hget']
    dsimp only
    have hlen : ¬ ((GoMap.get (List.foldl (deleteOne tbl id) h (idOf R id)).idmap id).getD []).length ≠ 0 := by
      rw [q2, if_pos rfl, withoutAll_self]; simp
    rw [if_neg hlen]
    refine ⟨_, rfl, ⟨?_, ?_, ?_, ?_⟩, q5, q4⟩
    · have := q1; rw [withoutAll_idOf hi.nodup] at this; exact this
    · intro id'
      dsimp only
      rw [GoMap.get_del]
      by_cases hx : id = id'
      · subst hx
        rw [if_pos rfl]
        unfold ne idOf
        rw [if_pos]
        rw [List.filter_filter, List.filter_eq_nil_iff]
        intro x _; simp
      · rw [if_neg hx, q2, if_neg (Ne.symm hx), hi.id]
        congr 1
        unfold idOf
        rw [List.filter_filter]
        apply List.filter_congr
        intro x _
        rw [Bool.eq_iff_iff]
        simp only [Bool.and_eq_true, decide_eq_true_eq]
        constructor
        · intro h1; exact ⟨h1, by rw [h1]; exact Ne.symm hx⟩
        · exact And.left
    · exact List.Nodup.sublist ((List.filter_sublist).map _) hi.nodup
    · intro c hc
      show c.cid < (List.foldl (deleteOne tbl id) h (idOf R id)).next
      rw [q3]
      exact hi.fresh c (List.mem_filter.1 hc).1

end Swoll.Lemmas.Hub
