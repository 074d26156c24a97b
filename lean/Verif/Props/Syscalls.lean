import Verif.Model.Syscalls
import Verif.Spec.Syscalls
import Verif.Lemmas.Syscalls
/-
C43: syscall lookup is consistent by name and number.
`order` is the (unspecified) order in which Go iterates the class map.
-/
namespace Swoll.Props.Syscalls
open Swoll Swoll.Syscalls Swoll.Spec.Syscalls Swoll.Lemmas.Syscalls

/-- C43: whatever the map iteration order, initialisation succeeds. -/
theorem c43_init_succeeds (order : List (String × String × String)) (h : order.Perm gClassMap) :
    ∃ s, new order = some s := by
  obtain ⟨s, hs, _⟩ := initLoop_spec order ⟨[], []⟩
    ((h.map _).nodup_iff.2 cls_names_nodup) (fun e he => cls_all_found e (h.mem_iff.1 he))
  exact ⟨s, hs⟩

/-- C43 (completeness): every syscall present in both tables is found by number (either
integer type) and by name, always as the same record, whatever the iteration order. -/
theorem c43_lookup_complete (order : List (String × String × String)) (h : order.Perm gClassMap)
    (s : Syscalls) (hs : new order = some s)
    (name : String) (nr : Nat) (c g : String) (he : Entry name nr c g) :
    lookup s (.int nr) = some ⟨nr, name, c, g⟩ ∧
    lookup s (.u32 (BitVec.ofNat 32 nr)) = some ⟨nr, name, c, g⟩ ∧
    lookup s (.str name) = some ⟨nr, name, c, g⟩ := by
  obtain ⟨s', hs', ha, _, _⟩ := initLoop_spec order ⟨[], []⟩
    ((h.map _).nodup_iff.2 cls_names_nodup) (fun e he => cls_all_found e (h.mem_iff.1 he))
  have : s' = s := by
    have h1 : some s' = some s := hs'.symm.trans hs
    injection h1
  subst this
  have hg := GoMap.get_of_mem names_nodup he.1
  have hh := ha (c, g, name) (h.mem_iff.2 he.2) nr hg
  have hlt : nr < 333 := by
    have : nr ∈ gSyscallMap.map (·.2) := List.mem_map.2 ⟨_, he.1, rfl⟩
    rw [nrs_eq_range] at this
    exact List.mem_range.1 this
  refine ⟨hh.2, ?_, ?_⟩
  · have : (BitVec.ofNat 32 nr).toNat = nr := by
      simp only [BitVec.toNat_ofNat]; omega
    simp only [lookup, this]
    exact hh.2
  · have hp := names_prefixed _ he.1
    simp only [lookup, normName, hp, if_true]
    exact hh.1

/-- C43: a name may be given without its `sys_` prefix. -/
theorem c43_prefix_optional (s : Syscalls) (v : String)
    (h : "sys_".toList.isPrefixOf v.toList = false) :
    lookup s (.str v) = lookup s (.str ("sys_" ++ v)) := by
  have h2 : "sys_".toList.isPrefixOf ("sys_" ++ v).toList = true := by
    rw [String.toList_append]
    exact List.isPrefixOf_iff_prefix.2 (List.prefix_append _ _)
  simp only [lookup, normName, h, h2, if_true, if_false, Bool.false_eq_true]

/-- C43 (soundness): whatever is returned is a table entry matching the key. -/
theorem c43_lookup_sound (order : List (String × String × String)) (h : order.Perm gClassMap)
    (s : Syscalls) (hs : new order = some s) (k : Key) (sc : Syscall)
    (hl : lookup s k = some sc) :
    Entry sc.name sc.nr sc.cls sc.group ∧
    (match k with
     | .str v => sc.name = v ∨ sc.name = "sys_" ++ v
     | .u32 n => sc.nr = n.toNat
     | .int n => (sc.nr : Int) = n
     | .other => False) := by
  obtain ⟨s', hs', ha, hb, hc⟩ := initLoop_spec order ⟨[], []⟩
    ((h.map _).nodup_iff.2 cls_names_nodup) (fun e he => cls_all_found e (h.mem_iff.1 he))
  have : s' = s := by
    have h1 : some s' = some s := hs'.symm.trans hs
    injection h1
  subst this
  have hname : ∀ k sc, GoMap.get s'.name k = some sc →
      Entry sc.name sc.nr sc.cls sc.group ∧ sc.name = k := by
    intro k sc hk
    by_cases hex : ∃ e ∈ order, e.2.2 = k
    · obtain ⟨e, he, rfl⟩ := hex
      obtain ⟨nr, hnr⟩ := Option.isSome_iff_exists.1 (cls_all_found e (h.mem_iff.1 he))
      rw [(ha e he nr hnr).1] at hk
      injection hk with hk
      subst hk
      exact ⟨⟨GoMap.mem_of_get hnr, h.mem_iff.1 he⟩, rfl⟩
    · rw [hb k (fun e he h => hex ⟨e, he, h⟩)] at hk
      simp at hk
  have hnr : ∀ (n : Int) sc, GoMap.get s'.nr n = some sc →
      Entry sc.name sc.nr sc.cls sc.group ∧ (sc.nr : Int) = n := by
    intro n sc hk
    by_cases hex : ∃ e ∈ order, ∃ nr, GoMap.get gSyscallMap e.2.2 = some nr ∧ (nr : Int) = n
    · obtain ⟨e, he, nr, hnr, rfl⟩ := hex
      rw [(ha e he nr hnr).2] at hk
      injection hk with hk
      subst hk
      exact ⟨⟨GoMap.mem_of_get hnr, h.mem_iff.1 he⟩, rfl⟩
    · rw [hc n (fun e he nr hnr h => hex ⟨e, he, nr, hnr, h⟩)] at hk
      simp at hk
  cases k with
  | str v =>
    obtain ⟨h1, h2⟩ := hname _ _ hl
    refine ⟨h1, ?_⟩
    show sc.name = v ∨ sc.name = "sys_" ++ v
    rw [h2]
    unfold normName
    split
    · exact Or.inl rfl
    · exact Or.inr rfl
  | u32 n =>
    obtain ⟨h1, h2⟩ := hnr _ _ hl
    exact ⟨h1, Int.ofNat.inj h2⟩
  | int n => exact hnr _ _ hl
  | other => simp [lookup] at hl

/-- C43: the result of `Lookup` does not depend on the map iteration order. -/
theorem c43_order_independent (o₁ o₂ : List (String × String × String))
    (h₁ : o₁.Perm gClassMap) (h₂ : o₂.Perm gClassMap) (s₁ s₂ : Syscalls)
    (hs₁ : new o₁ = some s₁) (hs₂ : new o₂ = some s₂) (k : Key) :
    lookup s₁ k = lookup s₂ k := by
  have key : ∀ (o₁ o₂ : List (String × String × String)) (s₁ s₂ : Syscalls),
      o₁.Perm gClassMap → o₂.Perm gClassMap → new o₁ = some s₁ → new o₂ = some s₂ →
      ∀ k sc, lookup s₁ k = some sc → lookup s₂ k = some sc := by
    intro o₁ o₂ s₁ s₂ h₁ h₂ hs₁ hs₂ k sc hl
    obtain ⟨hent, hm⟩ := c43_lookup_sound o₁ h₁ s₁ hs₁ k sc hl
    have hc := c43_lookup_complete o₂ h₂ s₂ hs₂ sc.name sc.nr sc.cls sc.group hent
    have hsc : (⟨sc.nr, sc.name, sc.cls, sc.group⟩ : Syscall) = sc := rfl
    rw [hsc] at hc
    cases k with
    | int n =>
      have hm : (sc.nr : Int) = n := hm
      rw [← hm]; exact hc.1
    | u32 n =>
      have hm : sc.nr = n.toNat := hm
      have h := hc.2.1
      rw [hm] at h
      simpa using h
    | other => simp [lookup] at hl
    | str v =>
      simp only [lookup] at hl ⊢
      have hpre : "sys_".toList.isPrefixOf (normName v).toList = true := by
        unfold normName
        split
        · assumption
        · rw [String.toList_append]
          exact List.isPrefixOf_iff_prefix.2 (List.prefix_append _ _)
      have hidem : normName (normName v) = normName v := by
        rw [normName, if_pos hpre]
      have hl1 : lookup s₁ (.str (normName v)) = some sc := by
        simp only [lookup, hidem]; exact hl
      obtain ⟨_, hm1⟩ := c43_lookup_sound o₁ h₁ s₁ hs₁ _ sc hl1
      have hm1 : sc.name = normName v ∨ sc.name = "sys_" ++ normName v := hm1
      have hnm : sc.name = normName v := by
        -- the stored record carries the key it is stored under
        obtain ⟨s', hs', ha, hb, _⟩ := initLoop_spec o₁ ⟨[], []⟩
          ((h₁.map _).nodup_iff.2 cls_names_nodup)
          (fun e he => cls_all_found e (h₁.mem_iff.1 he))
        have : s' = s₁ := by
          have h1 : some s' = some s₁ := hs'.symm.trans hs₁
          injection h1
        subst this
        by_cases hex : ∃ e ∈ o₁, e.2.2 = normName v
        · obtain ⟨e, he, hek⟩ := hex
          obtain ⟨nr, hnr⟩ := Option.isSome_iff_exists.1 (cls_all_found e (h₁.mem_iff.1 he))
          have h3 := (ha e he nr hnr).1
          rw [hek, hl] at h3
          injection h3 with h3
          rw [h3]; exact hek
        · rw [hb _ (fun e he h => hex ⟨e, he, h⟩)] at hl
          simp at hl
      have h4 := hc.2.2
      rw [hnm] at h4
      simp only [lookup, hidem] at h4
      exact h4
  cases h : lookup s₁ k with
  | some sc => exact (key o₁ o₂ s₁ s₂ h₁ h₂ hs₁ hs₂ k sc h).symm
  | none =>
    cases h' : lookup s₂ k with
    | none => rfl
    | some sc =>
      rw [key o₂ o₁ s₂ s₁ h₂ h₁ hs₂ hs₁ k sc h'] at h
      cases h

theorem munlock_in_map : ("sys_munlock", 150) ∈ gSyscallMap := by decide +kernel

theorem munlock_not_in_class : ∀ e ∈ gClassMap, e.2.2 ≠ "sys_munlock" := by decide +kernel

/-- C43 violated: `sys_munlock` (150) is in the number table but, because it is in no
class/group list, it can be found neither by name nor by number.  (28 syscalls are
affected; see DESIGN.md.) -/
theorem c43_every_number_reachable_violated (order : List (String × String × String))
    (h : order.Perm gClassMap) (s : Syscalls) (hs : new order = some s) :
    ("sys_munlock", 150) ∈ gSyscallMap ∧ lookup s (.int 150) = none ∧
      lookup s (.str "munlock") = none := by
  refine ⟨munlock_in_map, ?_, ?_⟩
  · cases hl : lookup s (.int 150) with
    | none => rfl
    | some sc =>
      obtain ⟨h1, h2⟩ := c43_lookup_sound order h s hs _ sc hl
      have h2 : (sc.nr : Int) = 150 := h2
      have h3 : sc.nr = 150 := by omega
      have h4 := h1.1
      rw [h3] at h4
      have := name_of_nr h4 munlock_in_map
      exact absurd this (munlock_not_in_class _ h1.2)
  · cases hl : lookup s (.str "munlock") with
    | none => rfl
    | some sc =>
      obtain ⟨h1, h2⟩ := c43_lookup_sound order h s hs _ sc hl
      have h2 : sc.name = "munlock" ∨ sc.name = "sys_" ++ "munlock" := h2
      rcases h2 with h2 | h2
      · have h5 := names_prefixed _ h1.1
        rw [h2] at h5
        exact absurd h5 (by show ¬ "sys_".toList.isPrefixOf "munlock".toList = true; decide)
      · exact absurd h2 (munlock_not_in_class _ h1.2)

/-- Non-vacuity: the source order is a legal order, and e.g. `openat` is an entry. -/
example : gClassMap.Perm gClassMap ∧ Entry "sys_openat" 257 "FileSystem" "Files" :=
  ⟨List.Perm.refl _, by decide +kernel, by decide +kernel⟩

/-! ### C116 -/

/-- Numbers occur once in the table that is built. -/
theorem initLoop_nodup (es : List (String × String × String)) (s s' : Syscalls) (h : GoMap.NodupKeys s.nr)
    (hs : initLoop s es = some s') : GoMap.NodupKeys s'.nr := by
  induction es generalizing s with
  | nil => cases hs; exact h
  | cons e es ih =>
    unfold initLoop initStep at hs
    cases hg : GoMap.get gSyscallMap e.2.2 with
    | none => rw [hg] at hs; cases hs
    | some nr =>
      rw [hg] at hs
      exact ih _ (GoMap.nodupKeys_set h _ _) hs

theorem eraseDups_nodup (l : List String) : l.eraseDups.Nodup := by
  generalize hn : l.length = n
  induction n using Nat.strongRecOn generalizing l with
  | ind n ih =>
    cases l with
    | nil => exact List.nodup_nil
    | cons a l =>
      rw [List.eraseDups_cons, List.nodup_cons]
      refine ⟨?_, ih _ ?_ _ rfl⟩
      · rw [List.mem_eraseDups]
        simp
      · rw [← hn, List.length_cons]
        exact Nat.lt_succ_of_le (List.length_filter_le ..)

/-- C116: the calls of a class are the entries of the tables with that class, and each is listed once. -/
theorem c116_by_class (order : List (String × String × String)) (h : order.Perm gClassMap) (s : Syscalls)
    (hs : new order = some s) (it : GoMap Int Syscall) (hit : it.Perm s.nr) (cls : String) :
    (∀ sc, sc ∈ getByClass it cls ↔ Entry sc.name sc.nr sc.cls sc.group ∧ sc.cls = cls) ∧
    (getByClass it cls).Nodup := by
  have hn : GoMap.NodupKeys s.nr := initLoop_nodup order ⟨[], []⟩ s GoMap.nodupKeys_nil hs
  have hni : GoMap.NodupKeys it := GoMap.keys_perm_nodup hit.symm hn
  have key : ∀ sc, sc ∈ it.map (·.2) ↔ Entry sc.name sc.nr sc.cls sc.group := by
    intro sc
    constructor
    · intro hm
      obtain ⟨⟨n, sc'⟩, hm', e⟩ := List.mem_map.1 hm
      cases e
      exact (c43_lookup_sound order h s hs (.int n) sc' (GoMap.get_of_mem hn (hit.mem_iff.1 hm'))).1
    · intro he
      have := (c43_lookup_complete order h s hs sc.name sc.nr sc.cls sc.group he).1
      exact List.mem_map.2 ⟨((sc.nr : Int), sc), hit.mem_iff.2 (GoMap.mem_of_get this), rfl⟩
  refine ⟨?_, ?_⟩
  · intro sc
    unfold getByClass
    rw [List.mem_filter, key]
    simp
  · unfold getByClass
    refine List.Pairwise.filter _ (?_ : List.Nodup _)
    have hk : ∀ x ∈ it, x.1 = (x.2.nr : Int) := by
      intro x hx
      exact (c43_lookup_sound order h s hs (.int x.1) x.2 (GoMap.get_of_mem hn (hit.mem_iff.1 hx))).2.symm
    clear key hit
    induction it with
    | nil => exact List.nodup_nil
    | cons x it ih =>
      unfold GoMap.NodupKeys at hni
      rw [GoMap.keys_cons, List.nodup_cons] at hni
      rw [List.map_cons, List.nodup_cons]
      refine ⟨?_, ih hni.2 (fun y hy => hk y (List.mem_cons_of_mem _ hy))⟩
      intro hm
      obtain ⟨y, hy, e⟩ := List.mem_map.1 hm
      apply hni.1
      have e1 := hk x (List.mem_cons_self ..)
      have e2 := hk y (List.mem_cons_of_mem _ hy)
      rw [e1, ← e, ← e2]
      exact List.mem_map.2 ⟨y, hy, rfl⟩

/-- C116: the calls of a group are those of the class with that group, each once; they are the names `Calls`
lists. -/
theorem c116_by_group (order : List (String × String × String)) (h : order.Perm gClassMap) (s : Syscalls)
    (hs : new order = some s) (it : GoMap Int Syscall) (hit : it.Perm s.nr) (cls group : String) :
    (∀ sc, sc ∈ getByGroup (getByClass it cls) group ↔
      Entry sc.name sc.nr sc.cls sc.group ∧ sc.cls = cls ∧ sc.group = group) ∧
    (getByGroup (getByClass it cls) group).Nodup ∧
    (∀ name, name ∈ calls cls group ↔ ∃ sc ∈ getByGroup (getByClass it cls) group, sc.name = name) := by
  obtain ⟨h1, h2⟩ := c116_by_class order h s hs it hit cls
  have key : ∀ sc, sc ∈ getByGroup (getByClass it cls) group ↔
      Entry sc.name sc.nr sc.cls sc.group ∧ sc.cls = cls ∧ sc.group = group := by
    intro sc
    unfold getByGroup
    rw [List.mem_filter, h1]
    simp [and_assoc]
  refine ⟨key, List.Pairwise.filter _ h2, ?_⟩
  intro name
  constructor
  · intro hm
    unfold calls at hm
    obtain ⟨e, he, rfl⟩ := List.mem_map.1 hm
    rw [List.mem_filter] at he
    obtain ⟨nr, hnr⟩ := Option.isSome_iff_exists.1 (cls_all_found e he.1)
    have hc : e.1 = cls ∧ e.2.1 = group := by simpa using he.2
    refine ⟨⟨nr, e.2.2, cls, group⟩, (key _).2 ⟨⟨GoMap.mem_of_get hnr, ?_⟩, rfl, rfl⟩, rfl⟩
    rw [← hc.1, ← hc.2]
    exact he.1
  · rintro ⟨sc, hm, rfl⟩
    obtain ⟨he, hc, hg⟩ := (key sc).1 hm
    unfold calls
    refine List.mem_map.2 ⟨(sc.cls, sc.group, sc.name), List.mem_filter.2 ⟨he.2, ?_⟩, rfl⟩
    simp [hc, hg]

/-- C116: the classes and groups that are named are those with calls, each named once. -/
theorem c116_named (order : List (String × String × String)) (h : order.Perm gClassMap) (cls group : String) :
    (cls ∈ classes order ↔ ∃ g, calls cls g ≠ []) ∧ (classes order).Nodup ∧
    (group ∈ groups order cls ↔ calls cls group ≠ []) ∧ (groups order cls).Nodup := by
  have hc : ∀ c g, calls c g ≠ [] ↔ ∃ n, (c, g, n) ∈ gClassMap := by
    intro c g
    unfold calls
    rw [Ne, List.map_eq_nil_iff, List.filter_eq_nil_iff]
    constructor
    · intro hn
      apply Classical.byContradiction
      intro hex
      apply hn
      intro e he hce
      apply hex
      have : e.1 = c ∧ e.2.1 = g := by simpa using hce
      exact ⟨e.2.2, by rw [← this.1, ← this.2]; exact he⟩
    · rintro ⟨n, hn⟩ hall
      exact hall _ hn (by simp)
  refine ⟨?_, eraseDups_nodup _, ?_, eraseDups_nodup _⟩
  · unfold classes
    rw [List.mem_eraseDups, List.mem_map]
    constructor
    · rintro ⟨e, he, rfl⟩
      exact ⟨e.2.1, (hc _ _).2 ⟨e.2.2, h.mem_iff.1 he⟩⟩
    · rintro ⟨g, hg⟩
      obtain ⟨n, hn⟩ := (hc _ _).1 hg
      exact ⟨_, h.mem_iff.2 hn, rfl⟩
  · unfold groups
    rw [List.mem_eraseDups, List.mem_map, hc]
    constructor
    · rintro ⟨e, he, rfl⟩
      rw [List.mem_filter] at he
      have : e.1 = cls := by simpa using he.2
      exact ⟨e.2.2, by rw [← this]; exact h.mem_iff.1 he.1⟩
    · rintro ⟨n, hn⟩
      exact ⟨(cls, group, n), List.mem_filter.2 ⟨h.mem_iff.2 hn, by simp⟩, rfl⟩

/-- C116: a call is in one group of one class. -/
theorem c116_one_place (name : String) (c c' g g' : String) (h : name ∈ calls c g) (h' : name ∈ calls c' g') :
    c = c' ∧ g = g' := by
  unfold calls at h h'
  obtain ⟨e, he, rfl⟩ := List.mem_map.1 h
  obtain ⟨e', he', hn⟩ := List.mem_map.1 h'
  rw [List.mem_filter] at he he'
  have h1 : e.1 = c ∧ e.2.1 = g := by simpa using he.2
  have h2 : e'.1 = c' ∧ e'.2.1 = g' := by simpa using he'.2
  have := inj_of_nodup_map cls_names_nodup he'.1 he.1 hn
  rw [← h1.1, ← h1.2, ← h2.1, ← h2.2, this]
  exact ⟨rfl, rfl⟩

/-- A case: reading and writing are in the same group. -/
example : "sys_read" ∈ calls "FileSystem" "ReadWrite" ∧ "sys_write" ∈ calls "FileSystem" "ReadWrite" := by
  decide +kernel

end Swoll.Props.Syscalls
