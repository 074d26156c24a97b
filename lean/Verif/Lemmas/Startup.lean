import Verif.Spec.Startup
import Verif.Lemmas.JobArgs
import Verif.Lemmas.Offsets
/-
Lines of a file and of a kernel configuration.
-/
namespace Swoll.Lemmas.Startup
open Swoll Swoll.Startup Swoll.Spec.Startup
open Swoll.JobArgs (Str split join)
open Swoll.Lemmas.JobArgs (split_ne_nil split_of_not_mem split_append)

theorem split_at {sep : Char} (b rest : Str) : split sep (b ++ sep :: rest) = split sep b ++ split sep rest := by
  induction b with
  | nil => simp only [List.nil_append, split, if_true, List.singleton_append]
  | cons c b ih =>
    rw [List.cons_append, split, split, ih]
    by_cases hc : c = sep
    · rw [if_pos hc, if_pos hc]; rfl
    · rw [if_neg hc, if_neg hc]
      cases hb : split sep b with
      | nil => exact absurd hb (split_ne_nil _ _)
      | cons f fs => rfl

theorem join_split {sep : Char} (s : Str) : join sep (split sep s) = s := by
  induction s with
  | nil => rfl
  | cons c s ih =>
    rw [split]
    by_cases hc : c = sep
    · rw [if_pos hc]
      cases hs : split sep s with
      | nil => exact absurd hs (split_ne_nil _ _)
      | cons f fs => rw [hs] at ih; rw [join, ih, hc]; rfl
    · rw [if_neg hc]
      cases hs : split sep s with
      | nil => exact absurd hs (split_ne_nil _ _)
      | cons f fs =>
        rw [hs] at ih
        cases fs with
        | nil => simp only [join] at ih ⊢; rw [ih]
        | cons g gs => simp only [join] at ih ⊢; rw [List.cons_append, ih]

theorem split_no_sep {sep : Char} (s : Str) : ∀ f ∈ split sep s, sep ∉ f := by
  induction s with
  | nil => intro f hf; rw [split, List.mem_singleton] at hf; rw [hf]; simp
  | cons c s ih =>
    rw [split]
    by_cases hc : c = sep
    · rw [if_pos hc]
      intro f hf
      rcases List.mem_cons.1 hf with rfl | hf
      · simp
      · exact ih f hf
    · rw [if_neg hc]
      cases hs : split sep s with
      | nil => exact absurd hs (split_ne_nil _ _)
      | cons g gs =>
        rw [hs] at ih
        intro f hf
        rcases List.mem_cons.1 hf with rfl | hf
        · intro hm
          rcases List.mem_cons.1 hm with hm | hm
          · exact hc hm.symm
          · exact ih g (by simp) hm
        · exact ih f (List.mem_cons_of_mem _ hf)

theorem join_append {sep : Char} : ∀ (xs : List Str) (y : Str) (ys : List Str), xs ≠ [] →
    join sep (xs ++ y :: ys) = join sep xs ++ sep :: join sep (y :: ys)
  | [], _, _, h => absurd rfl h
  | [a], y, ys, _ => by simp only [List.singleton_append, join]
  | a :: b :: xs, y, ys, _ => by
    have := join_append (sep := sep) (b :: xs) y ys (by simp)
    simp only [List.cons_append, join] at this ⊢
    rw [this]; simp

/-- The parts between line breaks are the lines. -/
theorem mem_split (text l : Str) : l ∈ split '\n' text ↔ LineOf text l := by
  constructor
  · intro hl
    refine ⟨split_no_sep _ _ hl, ?_⟩
    obtain ⟨xs, ys, hx⟩ := List.append_of_mem hl
    have ht := join_split (sep := '\n') text
    rw [hx] at ht
    have htail : ∃ after, join '\n' (l :: ys) = l ++ after ∧ (after = [] ∨ ∃ a, after = '\n' :: a) := by
      cases ys with
      | nil => exact ⟨[], by simp [join], Or.inl rfl⟩
      | cons y ys => exact ⟨'\n' :: join '\n' (y :: ys), rfl, Or.inr ⟨_, rfl⟩⟩
    obtain ⟨after, ha1, ha2⟩ := htail
    cases xs with
    | nil =>
      refine ⟨[], after, ?_, Or.inl rfl, ha2⟩
      rw [← ht]; simpa using ha1
    | cons x xs =>
      refine ⟨join '\n' (x :: xs) ++ ['\n'], after, ?_, Or.inr ⟨_, rfl⟩, ha2⟩
      rw [← ht, join_append _ _ _ (by simp), ha1]; simp
  · rintro ⟨hn, before, after, ht, hb, ha⟩
    have hla : l ∈ split '\n' (l ++ after) := by
      rcases ha with rfl | ⟨a, rfl⟩
      · rw [List.append_nil, split_of_not_mem hn]; simp
      · rw [split_append hn]; simp
    rw [ht]
    rcases hb with rfl | ⟨b, rfl⟩
    · simpa using hla
    · have : b ++ ['\n'] ++ l ++ after = b ++ '\n' :: (l ++ after) := by simp
      rw [this, split_at]
      exact List.mem_append_right _ hla

/-- The lines scanned of an ordinary text are its lines; but for an empty one at its end. -/
theorem mem_scan {text l : Str} (h : Ordinary text) (hl : l ≠ []) : l ∈ Offsets.scan text ↔ LineOf text l := by
  have hcr : ∀ s ∈ split '\n' text, '\r' ∉ s := by
    intro s hs hr
    obtain ⟨-, b, a, ht, -⟩ := (mem_split _ _).1 hs
    exact h.1 (by rw [ht]; simp [hr])
  have hall : ∀ s ∈ split '\n' text, s.length ≤ 65535 := fun s hs => h.2 s ((mem_split _ _).1 hs)
  have hdrop : ∀ ls : List Str, (∀ s ∈ ls, '\r' ∉ s) → ls.map Offsets.dropCR = ls := by
    intro ls hls
    induction ls with
    | nil => rfl
    | cons s ls ih =>
      rw [List.map_cons, ih (fun x hx => hls x (List.mem_cons_of_mem _ hx))]
      congr 1
      unfold Offsets.dropCR
      rw [if_neg]
      intro hr
      exact hls s (by simp) (List.mem_of_getLast? hr)
  rw [← mem_split]
  unfold Offsets.scan
  dsimp only
  by_cases hlast : (split '\n' text).getLast? = some []
  · rw [if_pos hlast]
    have hsub : ∀ s ∈ (split '\n' text).dropLast, s ∈ split '\n' text := fun s hs => List.dropLast_subset _ hs
    rw [Lemmas.Offsets.takeWhile_all (fun s hs => hall s (hsub s hs)), hdrop _ (fun s hs => hcr s (hsub s hs))]
    refine ⟨hsub l, fun hm => ?_⟩
    obtain ⟨ys, hys⟩ := List.getLast?_eq_some_iff.1 hlast
    rw [hys] at hm ⊢
    rw [List.dropLast_concat]
    rcases List.mem_append.1 hm with hm | hm
    · exact hm
    · exact absurd (List.mem_singleton.1 hm) hl
  · rw [if_neg hlast, Lemmas.Offsets.takeWhile_all hall, hdrop _ hcr]

theorem takeWhile_word {f rest : Str} (hf : f.all Offsets.wordChar = true) (hr : rest.head? = some '=') :
    (f ++ rest).takeWhile Offsets.wordChar = f ∧ (f ++ rest).dropWhile Offsets.wordChar = rest := by
  induction f with
  | nil =>
    cases rest with
    | nil => cases hr
    | cons c r => injection hr with hr; subst hr; exact ⟨rfl, rfl⟩
  | cons c f ih =>
    rw [List.all_cons, Bool.and_eq_true] at hf
    obtain ⟨h1, h2⟩ := ih hf.2
    simp only [List.cons_append, List.takeWhile_cons, List.dropWhile_cons, hf.1, if_true, h1, h2, and_self]

/-- A line that sets the option. -/
theorem configLine_eq {f l : Str} (hf : f ≠ []) (hw : f.all Offsets.wordChar = true) :
    configLine l = some f ↔ l = f ++ "=y".toList ∨ l = f ++ "=m".toList := by
  constructor
  · intro h
    unfold configLine at h
    dsimp only at h
    split at h
    · rename_i hc
      injection h with h
      have hl := (List.takeWhile_append_dropWhile (p := Offsets.wordChar) (l := l)).symm
      rw [h] at hl
      rcases hc.2 with hc | hc
      · left; rw [hl, hc]; rfl
      · right; rw [hl, hc]; rfl
    · cases h
  · have go : ∀ r : Str, (r = ['=', 'y'] ∨ r = ['=', 'm']) → configLine (f ++ r) = some f := by
      intro r hr
      obtain ⟨h1, h2⟩ := takeWhile_word (rest := r) hw (by rcases hr with rfl | rfl <;> rfl)
      unfold configLine
      dsimp only
      rw [h1, h2, if_pos ⟨hf, hr⟩]
    rintro (rfl | rfl)
    · exact go _ (Or.inl rfl)
    · exact go _ (Or.inr rfl)

theorem mem_parse {text f : Str} (h : Ordinary text) (hf : f ≠ []) (hw : f.all Offsets.wordChar = true) :
    f ∈ parseBootConfig text ↔ Enabled text f := by
  unfold parseBootConfig Enabled
  rw [List.mem_filterMap]
  constructor
  · rintro ⟨l, hl, hc⟩
    have hne : l ≠ [] := by rintro rfl; cases hc
    have hline := (mem_scan h hne).1 hl
    rcases (configLine_eq hf hw).1 hc with rfl | rfl
    · exact Or.inl hline
    · exact Or.inr hline
  · rintro (hl | hl)
    · exact ⟨_, (mem_scan h (by simp)).2 hl, (configLine_eq hf hw).2 (Or.inl rfl)⟩
    · exact ⟨_, (mem_scan h (by simp)).2 hl, (configLine_eq hf hw).2 (Or.inr rfl)⟩

end Swoll.Lemmas.Startup
