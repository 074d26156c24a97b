import Verif.Model.Syscalls
/-
Helper lemmas about the syscall tables.
-/
namespace Swoll.Lemmas.Syscalls
open Swoll Swoll.Syscalls

/-- A numeric digest of a string: distinct digests prove distinct strings
(cheaper for the kernel than comparing strings). -/
def digest (s : String) : Nat := s.toList.foldl (fun a c => a * 256 + c.toNat + 1) 0

theorem nodup_of_digest {l : List String} (h : (l.map digest).Nodup) : l.Nodup := by
  unfold List.Nodup at *
  rw [List.pairwise_map] at h
  exact h.imp (fun h e => h (by rw [e]))

theorem names_nodup : GoMap.NodupKeys gSyscallMap :=
  nodup_of_digest (by decide +kernel)

theorem names_prefixed : ∀ e ∈ gSyscallMap, "sys_".toList.isPrefixOf e.1.toList = true := by
  decide +kernel

theorem nrs_eq_range : gSyscallMap.map (·.2) = List.range 333 := by decide +kernel

theorem nrs_nodup : (gSyscallMap.map (·.2)).Nodup := by
  rw [nrs_eq_range]; exact List.nodup_range

/-- Position in `gSyscallMap` of each entry of `gClassMap` (a checked certificate). -/
def clsIdx : List Nat := [
  3, 85, 2, 257, 303, 304, 319, 133, 259, 82, 264, 316, 76, 77, 285, 83, 258, 84, 79, 80,
  81, 161, 78, 217, 212, 86, 265, 88, 266, 87, 263, 89, 267, 95, 4, 6, 5, 262, 90, 91, 268,
  92, 94, 93, 260, 132, 235, 261, 280, 21, 269, 332, 188, 189, 190, 191, 192, 193, 194, 196,
  197, 198, 199, 250, 248, 16, 72, 32, 33, 292, 73, 0, 19, 17, 295, 1, 20, 18, 296, 8, 40,
  75, 74, 26, 277, 162, 306, 206, 207, 209, 210, 208, 23, 270, 7, 271, 213, 291, 233, 232,
  281, 253, 294, 254, 255, 300, 301, 221, 187, 318, 41, 53, 55, 54, 51, 52, 49, 50, 43, 288,
  42, 48, 45, 47, 299, 44, 46, 307, 170, 171, 321, 201, 164, 96, 227, 228, 229, 305, 230,
  222, 226, 223, 224, 225, 37, 38, 36, 283, 286, 287, 159, 35, 100, 174, 175, 313, 176, 177,
  163, 179, 155, 167, 168, 165, 166, 180, 136, 137, 138, 139, 156, 103, 173, 172, 135, 153,
  169, 246, 320, 298, 63, 99, 62, 200, 234, 34, 13, 14, 127, 129, 297, 128, 130, 15, 131,
  282, 289, 284, 290, 219, 22, 293, 276, 275, 278, 29, 31, 30, 67, 64, 66, 65, 220, 202,
  273, 274, 68, 71, 69, 70, 240, 241, 245, 242, 243, 244, 56, 57, 58, 59, 322, 60, 231, 61,
  247, 39, 110, 186, 112, 124, 109, 121, 111, 105, 102, 106, 104, 117, 118, 119, 120, 113,
  114, 122, 107, 108, 116, 115, 308, 314, 315, 144, 145, 142, 143, 203, 204, 146, 147, 148,
  24, 141, 140, 251, 252, 160, 97, 302, 98, 12, 9, 11, 25, 10, 28, 149, 325, 151, 27, 324,
  154, 126, 125, 205, 211, 218, 158, 134, 157, 317, 101, 310, 311, 312, 272]

theorem cls_eq_idx : gClassMap.map (fun e => some e.2.2) =
    clsIdx.map (fun i => gSyscallMap[i]?.map (·.1)) := by decide +kernel

theorem clsIdx_nodup : clsIdx.Nodup := by decide +kernel

theorem inj_of_nodup_map {α β : Type} {f : α → β} : ∀ {l : List α}, (l.map f).Nodup →
    ∀ {x y : α}, x ∈ l → y ∈ l → f x = f y → x = y := by
  intro l
  induction l with
  | nil => intro _ x y hx; simp at hx
  | cons a l ih =>
    intro h x y hx hy hf
    rw [List.map_cons, List.nodup_cons] at h
    rcases List.mem_cons.1 hx with hx | hx <;> rcases List.mem_cons.1 hy with hy | hy
    · rw [hx, hy]
    · exact absurd (List.mem_map.2 ⟨y, hy, by rw [← hf, hx]⟩) h.1
    · exact absurd (List.mem_map.2 ⟨x, hx, by rw [hf, hy]⟩) h.1
    · exact ih h.2 hx hy hf

/-- Numbers identify names in `gSyscallMap`. -/
theorem name_of_nr {a b : String} {n : Nat} (ha : (a, n) ∈ gSyscallMap)
    (hb : (b, n) ∈ gSyscallMap) : a = b := by
  have := inj_of_nodup_map nrs_nodup ha hb rfl
  injection this

theorem cls_all_found : ∀ e ∈ gClassMap, (GoMap.get gSyscallMap e.2.2).isSome := by
  intro e he
  have h : some e.2.2 ∈ gClassMap.map (fun e => some e.2.2) := List.mem_map.2 ⟨e, he, rfl⟩
  rw [cls_eq_idx] at h
  obtain ⟨i, _, hi⟩ := List.mem_map.1 h
  obtain ⟨x, hx, hx2⟩ := Option.map_eq_some_iff.1 hi
  rw [← GoMap.mem_keys_iff, ← hx2]
  exact List.mem_map.2 ⟨x, List.mem_of_getElem? hx, rfl⟩

theorem cls_names_nodup : (gClassMap.map (·.2.2)).Nodup := by
  have h1 : (clsIdx.map (fun i => gSyscallMap[i]?.map (·.1))).Nodup := by
    unfold List.Nodup
    rw [List.pairwise_map]
    refine List.Pairwise.imp_of_mem ?_ clsIdx_nodup
    intro i j hi hj hij heq
    have hsome : ∀ i ∈ clsIdx, ∃ x, gSyscallMap[i]? = some x := by
      intro i hi
      have : (gSyscallMap[i]?.map (·.1)) ∈ clsIdx.map (fun i => gSyscallMap[i]?.map (·.1)) :=
        List.mem_map.2 ⟨i, hi, rfl⟩
      rw [← cls_eq_idx] at this
      obtain ⟨e, _, he⟩ := List.mem_map.1 this
      obtain ⟨x, hx, _⟩ := Option.map_eq_some_iff.1 he.symm
      exact ⟨x, hx⟩
    obtain ⟨x, hx⟩ := hsome i hi
    obtain ⟨y, hy⟩ := hsome j hj
    rw [hx, hy] at heq
    simp only [Option.map_some, Option.some.injEq] at heq
    have hxy := inj_of_nodup_map names_nodup (List.mem_of_getElem? hx) (List.mem_of_getElem? hy) heq
    subst hxy
    have hnr : ∀ (k : Nat) (z : String × Nat), gSyscallMap[k]? = some z → z.2 = k := by
      intro k z hz
      have : (gSyscallMap.map (·.2))[k]? = some z.2 := by rw [List.getElem?_map, hz]; rfl
      rw [nrs_eq_range] at this
      obtain ⟨hlt, hv⟩ := List.getElem?_eq_some_iff.1 this
      rw [List.getElem_range] at hv
      exact hv.symm
    exact hij ((hnr i x hx).symm.trans (hnr j x hy))
  rw [← cls_eq_idx] at h1
  unfold List.Nodup at *
  rw [List.pairwise_map] at *
  exact h1.imp (fun h e => h (by rw [e]))

/-- The record built for a class-map entry. -/
def mk (e : String × String × String) (nr : Nat) : Syscall := ⟨nr, e.2.2, e.1, e.2.1⟩

theorem initLoop_spec : ∀ (es : List (String × String × String)) (s : Syscalls),
    (es.map (·.2.2)).Nodup →
    (∀ e ∈ es, (GoMap.get gSyscallMap e.2.2).isSome) →
    ∃ s', initLoop s es = some s' ∧
      (∀ e ∈ es, ∀ nr, GoMap.get gSyscallMap e.2.2 = some nr →
        GoMap.get s'.name e.2.2 = some (mk e nr) ∧ GoMap.get s'.nr (nr : Int) = some (mk e nr)) ∧
      (∀ k, (∀ e ∈ es, e.2.2 ≠ k) → GoMap.get s'.name k = GoMap.get s.name k) ∧
      (∀ n : Int, (∀ e ∈ es, ∀ nr, GoMap.get gSyscallMap e.2.2 = some nr → (nr : Int) ≠ n) →
        GoMap.get s'.nr n = GoMap.get s.nr n) := by
  intro es
  induction es with
  | nil =>
    intro s _ _
    exact ⟨s, rfl, by simp, by simp, by simp⟩
  | cons e es ih =>
    intro s hn hf
    rw [List.map_cons, List.nodup_cons] at hn
    obtain ⟨nr, hnr⟩ := Option.isSome_iff_exists.1 (hf e (List.mem_cons_self))
    obtain ⟨s', hs', ha, hb, hc⟩ :=
      ih ⟨GoMap.set s.nr (nr : Int) (mk e nr), GoMap.set s.name e.2.2 (mk e nr)⟩ hn.2
        (fun x hx => hf x (List.mem_cons_of_mem _ hx))
    have hne : ∀ x ∈ es, x.2.2 ≠ e.2.2 := fun x hx h =>
      hn.1 (List.mem_map.2 ⟨x, hx, h⟩)
    refine ⟨s', ?_, ?_, ?_, ?_⟩
    · simp only [initLoop, initStep, hnr]
      exact hs'
    · intro x hx nr' hnr'
      rcases List.mem_cons.1 hx with rfl | hx
      · rw [hnr] at hnr'
        injection hnr' with hnr'
        subst hnr'
        refine ⟨?_, ?_⟩
        · rw [hb _ hne]; simp
        · rw [hc _ ?_]
          · simp
          · intro y hy n2 hn2 heq
            have h2 : n2 = nr := Int.ofNat.inj heq
            subst h2
            exact hne y hy (name_of_nr (GoMap.mem_of_get hn2) (GoMap.mem_of_get hnr))
      · exact ha x hx nr' hnr'
    · intro k hk
      rw [hb k (fun x hx => hk x (List.mem_cons_of_mem _ hx))]
      exact GoMap.get_set_other _ _ (hk e List.mem_cons_self)
    · intro n hk
      rw [hc n (fun x hx => hk x (List.mem_cons_of_mem _ hx))]
      exact GoMap.get_set_other _ _ (hk e List.mem_cons_self nr hnr)

end Swoll.Lemmas.Syscalls
