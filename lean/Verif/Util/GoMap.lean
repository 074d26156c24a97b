/-
Go maps as association lists.

A Go `map[K]V` is modelled by a list of key/value pairs.  `set` first removes the key, so
maps built from `[]` with `set`/`del` never hold a key twice (`NodupKeys`).
-/
namespace Swoll

/-- A Go map. -/
abbrev GoMap (K V : Type) := List (K × V)

namespace GoMap

variable {K V : Type} [DecidableEq K]

/-- `v, ok := m[k]` -/
def get (m : GoMap K V) (k : K) : Option V :=
  (m.find? (fun e => e.1 = k)).map (·.2)

/-- `delete(m, k)` -/
def del (m : GoMap K V) (k : K) : GoMap K V :=
  m.filter (fun e => e.1 ≠ k)

/-- `m[k] = v` -/
def set (m : GoMap K V) (k : K) (v : V) : GoMap K V :=
  (k, v) :: del m k

/-- `_, ok := m[k]` -/
def has (m : GoMap K V) (k : K) : Bool := (get m k).isSome

/-- The keys of a map. -/
def keys (m : GoMap K V) : List K := m.map (·.1)

/-- No key occurs twice. -/
def NodupKeys (m : GoMap K V) : Prop := (keys m).Nodup

omit [DecidableEq K] in
@[simp] theorem keys_nil : keys ([] : GoMap K V) = [] := rfl

omit [DecidableEq K] in
@[simp] theorem keys_cons (e : K × V) (m : GoMap K V) : keys (e :: m) = e.1 :: keys m := rfl

@[simp] theorem get_nil (k : K) : get ([] : GoMap K V) k = none := rfl

theorem get_cons (e : K × V) (m : GoMap K V) (k : K) :
    get (e :: m) k = if e.1 = k then some e.2 else get m k := by
  unfold get
  by_cases h : e.1 = k <;> simp [h]

theorem get_del (m : GoMap K V) (k k' : K) :
    get (del m k) k' = if k = k' then none else get m k' := by
  induction m with
  | nil => simp [del]
  | cons e m ih =>
    by_cases h : e.1 = k
    · have : del (e :: m) k = del m k := by simp [del, h]
      rw [this, ih, get_cons]
      by_cases h2 : k = k'
      · simp [h2]
      · simp [h2, h]
    · have : del (e :: m) k = e :: del m k := by simp [del, h]
      rw [this, get_cons, ih, get_cons]
      by_cases h2 : k = k'
      · subst h2; simp [h]
      · simp [h2]

@[simp] theorem get_del_same (m : GoMap K V) (k : K) : get (del m k) k = none := by
  simp [get_del]

theorem get_del_other (m : GoMap K V) {k k' : K} (h : k ≠ k') :
    get (del m k) k' = get m k' := by simp [get_del, h]

theorem get_set (m : GoMap K V) (k k' : K) (v : V) :
    get (set m k v) k' = if k = k' then some v else get m k' := by
  unfold set
  rw [get_cons, get_del]
  by_cases h : k = k' <;> simp [h]

@[simp] theorem get_set_same (m : GoMap K V) (k : K) (v : V) :
    get (set m k v) k = some v := by simp [get_set]

theorem get_set_other (m : GoMap K V) {k k' : K} (v : V) (h : k ≠ k') :
    get (set m k v) k' = get m k' := by simp [get_set, h]

theorem mem_keys_iff (m : GoMap K V) (k : K) : k ∈ keys m ↔ (get m k).isSome := by
  induction m with
  | nil => simp
  | cons e m ih =>
    rw [get_cons, keys_cons, List.mem_cons, ih]
    by_cases h : e.1 = k
    · simp [h]
    · have : ¬ k = e.1 := fun hh => h hh.symm
      simp [h, this]

theorem get_eq_none_iff (m : GoMap K V) (k : K) : get m k = none ↔ k ∉ keys m := by
  rw [mem_keys_iff]; cases get m k <;> simp

theorem mem_of_get {m : GoMap K V} {k : K} {v : V} (h : get m k = some v) : (k, v) ∈ m := by
  induction m with
  | nil => simp at h
  | cons e m ih =>
    rw [get_cons] at h
    by_cases h2 : e.1 = k
    · simp [h2] at h
      have : e = (k, v) := Prod.ext h2 h
      simp [this]
    · simp [h2] at h
      exact List.mem_cons_of_mem _ (ih h)

theorem get_of_mem {m : GoMap K V} (hn : NodupKeys m) {k : K} {v : V} (h : (k, v) ∈ m) :
    get m k = some v := by
  induction m with
  | nil => simp at h
  | cons e m ih =>
    unfold NodupKeys at hn
    rw [keys_cons, List.nodup_cons] at hn
    rw [get_cons]
    rcases List.mem_cons.1 h with h1 | h1
    · subst h1; simp
    · have : e.1 ≠ k := by
        intro he
        apply hn.1
        rw [he]
        exact List.mem_map.2 ⟨(k, v), h1, rfl⟩
      simp [this, ih hn.2 h1]

theorem mem_iff_get {m : GoMap K V} (hn : NodupKeys m) {k : K} {v : V} :
    (k, v) ∈ m ↔ get m k = some v :=
  ⟨get_of_mem hn, mem_of_get⟩

theorem keys_del (m : GoMap K V) (k : K) : keys (del m k) = (keys m).filter (fun x => x ≠ k) := by
  unfold keys del
  rw [List.filter_map]
  rfl

omit [DecidableEq K] in
theorem nodupKeys_nil : NodupKeys ([] : GoMap K V) := by simp [NodupKeys]

theorem nodupKeys_del {m : GoMap K V} (h : NodupKeys m) (k : K) : NodupKeys (del m k) := by
  unfold NodupKeys
  rw [keys_del]
  exact List.Pairwise.filter _ h

theorem nodupKeys_set {m : GoMap K V} (h : NodupKeys m) (k : K) (v : V) :
    NodupKeys (set m k v) := by
  unfold NodupKeys set
  rw [keys_cons, List.nodup_cons]
  refine ⟨?_, nodupKeys_del h k⟩
  rw [keys_del]
  simp

theorem mem_del {m : GoMap K V} {k : K} {e : K × V} : e ∈ del m k ↔ e ∈ m ∧ e.1 ≠ k := by
  simp [del]

theorem del_eq_self {m : GoMap K V} {k : K} (h : get m k = none) : del m k = m := by
  rw [get_eq_none_iff] at h
  unfold del
  rw [List.filter_eq_self]
  intro e he
  simp only [ne_eq, decide_not, Bool.not_eq_eq_eq_not, Bool.not_true, decide_eq_false_iff_not]
  intro hk
  exact h (hk ▸ List.mem_map.2 ⟨e, he, rfl⟩)

omit [DecidableEq K] in
theorem keys_perm_nodup {m m' : GoMap K V} (h : m.Perm m') (hn : NodupKeys m) : NodupKeys m' := by
  unfold NodupKeys keys at *
  exact (h.map _).nodup_iff.1 hn

theorem get_perm {m m' : GoMap K V} (h : m.Perm m') (hn : NodupKeys m) (k : K) :
    get m k = get m' k := by
  have hn' := keys_perm_nodup h hn
  cases hg : get m' k with
  | none =>
    rw [get_eq_none_iff] at hg ⊢
    intro hk
    exact hg ((h.map (·.1)).mem_iff.1 hk)
  | some v =>
    exact get_of_mem hn (h.mem_iff.2 (mem_of_get hg))

theorem length_del_le (m : GoMap K V) (k : K) : (del m k).length ≤ m.length :=
  List.length_filter_le _ _

end GoMap
end Swoll
