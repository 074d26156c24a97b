import Verif.Util.GoMap
/-
Iteration of a BPF hash map with `bpf_map_get_next_key`, as done by gobpf's
`Module.LookupNextElement` (used in pkg/kernel/filter.go:86 and
pkg/kernel/metrics/handler.go:34, 67).  The kernel's contract: if the given key is absent the
first entry is returned, otherwise the entry after it, and "no more" after the last one.  The
list order is the kernel's (unspecified) bucket order.  gobpf and the kernel are trusted.
-/
namespace Swoll.BpfIter
open Swoll

variable {K V : Type} [DecidableEq K]

/-- Everything after key `k`; the whole map when `k` is absent. -/
def after (m : GoMap K V) (k : K) : GoMap K V :=
  if GoMap.has m k then (m.dropWhile (fun e => e.1 ≠ k)).tail else m

/-- `LookupNextElement`: the next key and its value, or no more. -/
def lookupNext (m : GoMap K V) (k : K) : Option (K × V) := (after m k).head?

/-- The `for { more := LookupNextElement(...); if !more { break }; key = next; ... }` loop from
key `k`.  `none`: still running after `fuel` rounds. -/
def iterate (m : GoMap K V) : Nat → K → Option (List (K × V))
  | 0, _ => none
  | fuel + 1, k =>
    match lookupNext m k with
    | none => some []
    | some e => (iterate m fuel e.1).map (e :: ·)

theorem after_split {pre post : GoMap K V} {e : K × V}
    (hn : GoMap.NodupKeys (pre ++ e :: post)) : after (pre ++ e :: post) e.1 = post := by
  have hmem : GoMap.has (pre ++ e :: post) e.1 = true := by
    rw [GoMap.has, ← GoMap.mem_keys_iff]
    simp [GoMap.keys]
  unfold after
  rw [if_pos hmem]
  have hpre : ∀ x ∈ pre, x.1 ≠ e.1 := by
    intro x hx he
    unfold GoMap.NodupKeys GoMap.keys at hn
    rw [List.map_append, List.nodup_append] at hn
    exact hn.2.2 x.1 (List.mem_map.2 ⟨x, hx, rfl⟩) e.1 (by simp) he
  have : List.dropWhile (fun x => decide (x.1 ≠ e.1)) (pre ++ e :: post) = e :: post := by
    rw [List.dropWhile_append_of_pos (by intro x hx; simpa using hpre x hx)]
    simp
  rw [this]; rfl

theorem iterate_split (post : GoMap K V) : ∀ (pre : GoMap K V) (e : K × V),
    GoMap.NodupKeys (pre ++ e :: post) → ∀ fuel, post.length < fuel →
    iterate (pre ++ e :: post) fuel e.1 = some post := by
  induction post with
  | nil =>
    intro pre e hn fuel hf
    cases fuel with
    | zero => simp at hf
    | succ n => simp [iterate, lookupNext, after_split hn]
  | cons p post ih =>
    intro pre e hn fuel hf
    cases fuel with
    | zero => simp at hf
    | succ n =>
      have h2 : pre ++ e :: p :: post = (pre ++ [e]) ++ p :: post := by simp
      have h3 := ih (pre ++ [e]) p (h2 ▸ hn) n (by simpa using hf)
      rw [← h2] at h3
      simp [iterate, lookupNext, after_split hn, h3]

/-- Starting from an absent key the loop ends and yields the whole map. -/
theorem iterate_absent (m : GoMap K V) (k : K) (hn : GoMap.NodupKeys m) (hk : GoMap.get m k = none)
    (fuel : Nat) (hf : m.length < fuel) : iterate m fuel k = some m := by
  cases fuel with
  | zero => simp at hf
  | succ n =>
    have ha : after m k = m := by simp [after, GoMap.has, hk]
    cases m with
    | nil => simp [iterate, lookupNext, ha]
    | cons e m =>
      have := iterate_split m [] e hn n (by simpa using hf)
      simp only [List.nil_append] at this
      simp [iterate, lookupNext, ha, this]

/-- Starting from a present key the loop ends and yields exactly what follows it. -/
theorem iterate_present (pre post : GoMap K V) (e : K × V) (hn : GoMap.NodupKeys (pre ++ e :: post))
    (fuel : Nat) (hf : post.length < fuel) : iterate (pre ++ e :: post) fuel e.1 = some post :=
  iterate_split post pre e hn fuel hf

end Swoll.BpfIter
