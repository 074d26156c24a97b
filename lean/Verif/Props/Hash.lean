import Verif.Model.Hash
import Verif.Spec.Hash
import Verif.Lemmas.Crc
import Verif.Props.PubSub
/-
C06, C07, C63: hashed paths, AttachPath and AttachTrace.
-/
namespace Swoll.Props.Hash
open Swoll Swoll.Hash Swoll.Spec.Hash Swoll.PubSub Swoll.Spec.PubSub

variable (crc : String → BitVec 64)

theorem hashComps_eq (ps : List String) : hashComps crc ps = (meant ps).map (hash crc) := by
  unfold meant
  induction ps with
  | nil => rfl
  | cons p ps ih =>
    unfold hashComps
    by_cases h : p = ""
    · simp [h]
    · simp [h, ih]

theorem meant_self {ps : List String} (h : "" ∉ ps) : meant ps = ps := by
  unfold meant
  induction ps with
  | nil => rfl
  | cons p ps ih =>
    have h1 : p ≠ "" := fun e => h (by simp [e])
    rw [List.takeWhile_cons]
    simp only [ne_eq, h1, not_false_eq_true, decide_true, if_true]
    rw [ih (fun e => h (by simp [e]))]

theorem meant_append {ps : List String} (h : "" ∉ ps) (qs : List String) : meant (ps ++ qs) = ps ++ meant qs := by
  unfold meant
  induction ps with
  | nil => rfl
  | cons p ps ih =>
    have h1 : p ≠ "" := fun e => h (by simp [e])
    rw [List.cons_append, List.takeWhile_cons]
    simp only [ne_eq, h1, not_false_eq_true, decide_true, if_true]
    rw [ih (fun e => h (by simp [e]))]
    rfl

/-- C06: the hashed path of a list of non-empty components is a prefix of that of every
extension. -/
theorem c06_prefix (ps qs : List String) (h : "" ∉ ps) : hashPath crc ps <+: hashPath crc (ps ++ qs) := by
  unfold hashPath
  rw [List.cons_prefix_cons, hashComps_eq, hashComps_eq, meant_append h, meant_self h, List.map_append]
  exact ⟨rfl, List.prefix_append _ _⟩

/-- C06: one entry per component and one for the root. -/
theorem c06_length (ps : List String) (h : "" ∉ ps) : (hashPath crc ps).length = ps.length + 1 := by
  unfold hashPath
  rw [hashComps_eq, meant_self h]; simp

/-- C06: 0 never occurs. -/
theorem c06_nonzero (ps : List String) : (0 : BitVec 64) ∉ hashPath crc ps := by
  have hne : ∀ s, hash crc s ≠ 0 := by
    intro s
    unfold Swoll.Hash.hash
    split
    · decide
    · assumption
  unfold hashPath
  rw [hashComps_eq]
  intro h
  rcases List.mem_cons.1 h with h | h
  · exact hne _ h.symm
  · obtain ⟨s, _, hs⟩ := List.mem_map.1 h
    exact hne _ hs

/-- C06: everything from the first empty component on is ignored. -/
theorem c06_empty_component (ps qs : List String) (h : "" ∉ ps) :
    hashPath crc (ps ++ "" :: qs) = hashPath crc ps := by
  unfold hashPath
  rw [hashComps_eq, hashComps_eq, meant_append h, meant_self h]
  simp [meant]

/-- C06: so attaching with an empty component selects at least what the components before it
select. -/
theorem c06_empty_component_superset (ps qs rs : List String) (h : "" ∉ ps) :
    attachPath crc (ps ++ "" :: qs) <+: attachPath crc (ps ++ rs) := by
  have h' : "" ∉ nsStream :: ps := by simp [nsStream, h]
  unfold attachPath
  have := c06_empty_component crc (nsStream :: ps) qs h'
  rw [List.cons_append] at this
  rw [this]
  exact c06_prefix crc (nsStream :: ps) rs h'

theorem map_prefix_iff {α β : Type} (f : α → β) (l l' : List α)
    (hinj : ∀ x ∈ l, ∀ y ∈ l', f x = f y → x = y) : l.map f <+: l'.map f ↔ l <+: l' := by
  induction l generalizing l' with
  | nil => simp
  | cons a l ih =>
    cases l' with
    | nil => simp
    | cons b l' =>
      rw [List.map_cons, List.map_cons, List.cons_prefix_cons, List.cons_prefix_cons,
        ih l' (fun x hx y hy => hinj x (by simp [hx]) y (by simp [hy]))]
      constructor
      · rintro ⟨h1, h2⟩; exact ⟨hinj a (by simp) b (by simp) h1, h2⟩
      · rintro ⟨rfl, h2⟩; exact ⟨rfl, h2⟩

theorem hash_sep {strings : List String} (h : Separates crc strings) :
    ∀ s ∈ strings, ∀ t ∈ strings, hash crc s = hash crc t → s = t := h

/-- The components of an event. -/
abbrev comps (e : EvPath) : List String := [e.kubeNs, e.pod, e.container, e.syscall]

/-- C07: as far as the checksum keeps the components involved apart, an attached path is a
prefix of an event's path exactly when its components are the first components of the event. -/
theorem c07_path (paths : List String) (e : EvPath)
    (hsep : Separates crc (paths ++ comps e)) :
    attachPath crc paths <+: eventPath crc e ↔ meant paths <+: meant (comps e) := by
  unfold attachPath eventPath hashPath
  rw [List.cons_prefix_cons, hashComps_eq, hashComps_eq]
  have h1 : ∀ l, meant (nsStream :: l) = nsStream :: meant l := by
    intro l; unfold meant; rw [List.takeWhile_cons]; simp [nsStream]
  rw [h1, h1, List.map_cons, List.map_cons, List.cons_prefix_cons]
  rw [map_prefix_iff]
  · simp
  · intro x hx y hy
    apply hash_sep crc hsep
    · exact List.mem_append_left _ (List.takeWhile_subset _ hx)
    · exact List.mem_append_right _ (List.takeWhile_subset _ hy)

/-- C07: after any history of subscriptions and cancellations, an event published by the hub is
handed exactly once to a callback attached with `paths` when the attached components are the
first components of the event, and not at all otherwise. -/
theorem c07_attach {D : Type} {srt : List Env → List Env} (hs : Node.IsSort srt) (hist : List Op)
    (hu : UnsubOnce hist) :
    ∃ s, run srt PS.new hist = some s ∧
      ∀ x ∈ active hist, x.shard = "" → ∀ paths, x.path = attachPath crc paths →
      ∀ (hasher : Option (D → BitVec 64)) (o : Oracle), o.Valid → ∀ (d : D) (e : EvPath),
        Separates crc (paths ++ comps e) →
        (publish hasher o s d (linear (eventPath crc e))).count x.token =
          if meant paths <+: meant (comps e) then 1 else 0 := by
  obtain ⟨s, hr, h⟩ := PubSub.c01_publish (D := D) hs hist hu
  refine ⟨s, hr, fun x hx hsh paths hp hasher o ho d e hsep => ?_⟩
  rw [(h hasher o ho d (eventPath crc e)).1 x hx hsh, hp]
  simp only [c07_path crc paths e hsep]

/-- C07 without the proviso is false: these two (valid) pod names have the same CRC-64, so a
callback attached to one receives the other's events. -/
theorem c07_collision_violated :
    attachPath crcString ["default", "hhhhhhhhhhhhhhhhhhhhhh"] <+:
      eventPath crcString ⟨"default", "ljjinmmmnmmnkhlhhmmkoh", "c", "sys_read"⟩ ∧
    ¬ ["default", "hhhhhhhhhhhhhhhhhhhhhh"] <+: comps ⟨"default", "ljjinmmmnmmnkhlhhmmkoh", "c", "sys_read"⟩ := by
  decide +kernel

theorem bytes_append (s t : String) : bytes (s ++ t) = bytes s ++ bytes t := by
  unfold bytes
  rw [← List.map_append]
  congr 1

theorem bytes_inj {s t : String} (h : bytes s = bytes t) : s = t := by
  unfold bytes at h
  have h1 : s.toUTF8.data.toList = t.toUTF8.data.toList :=
    (List.map_inj_right fun a b e => UInt8.toBitVec_inj.1 e).1 h
  have h2 : s.toUTF8 = t.toUTF8 := by
    cases hs : s.toUTF8; cases ht : t.toUTF8
    rw [hs, ht] at h1
    simpa using h1
  exact String.toByteArray_inj.1 h2

/-- C07, a case in which the proviso holds by itself: the checksum tells two names apart that have the same
length and differ in at most eight neighbouring bytes, as those of the pods of one workload do. -/
theorem c07_near_names (pre xs ys post : List (BitVec 8)) (s t : String) (hs : bytes s = pre ++ xs ++ post)
    (ht : bytes t = pre ++ ys ++ post) (hl : xs.length = ys.length) (h8 : xs.length ≤ 8) (hne : s ≠ t) :
    crcString s ≠ crcString t := by
  intro h
  unfold crcString at h
  rw [hs, ht] at h
  have := Lemmas.Crc.crc64_burst hl h8 h
  exact hne (bytes_inj (by rw [hs, ht, this]))

/-- C07: so a callback attached to a pod gets nothing of another pod of the same workload, which shares its
base name and has a suffix of the same length, at most eight bytes; the checksum 0, which is taken for 1, is
left aside. -/
theorem c07_siblings (ns base a b container syscall : String) (hl : (bytes a).length = (bytes b).length)
    (h8 : (bytes a).length ≤ 8) (hz : crcString (base ++ a) ≠ 0) (hz' : crcString (base ++ b) ≠ 0)
    (hns : ns ≠ "") (ha : a ≠ "")
    (h : attachPath crcString [ns, base ++ a] <+: eventPath crcString ⟨ns, base ++ b, container, syscall⟩) :
    a = b := by
  have hb : ∀ x : String, x ≠ "" → base ++ x ≠ "" := by
    intro x hx e
    have := congrArg String.toList e
    simp at this
    exact hx this.2
  have hbne : b ≠ "" := by
    intro e
    subst e
    apply ha
    apply bytes_inj
    exact List.eq_nil_of_length_eq_zero (by rw [hl]; rfl)
  have h1 : nsStream ≠ "" := by decide
  unfold attachPath eventPath hashPath at h
  simp only [hashComps, h1, hns, hb a ha, hb b hbne, if_false, List.cons_prefix_cons, true_and] at h
  have hh := h.1
  unfold Swoll.Hash.hash at hh
  rw [if_neg hz, if_neg hz'] at hh
  apply Decidable.byContradiction
  intro hne
  refine c07_near_names (bytes base) (bytes a) (bytes b) [] (base ++ a) (base ++ b) ?_ ?_ hl h8 ?_ hh
  · rw [bytes_append]; simp
  · rw [bytes_append]; simp
  · intro e
    apply hne
    apply bytes_inj
    have := congrArg bytes e
    rw [bytes_append, bytes_append] at this
    exact List.append_cancel_left this

example : (bytes "x7k2p").length = (bytes "q9v4z").length ∧ (bytes "x7k2p").length ≤ 8 ∧
    crcString ("web-5d4f8c9b7-" ++ "x7k2p") ≠ 0 ∧ crcString ("web-5d4f8c9b7-" ++ "q9v4z") ≠ 0 ∧
    (bytes "web-5d4f8c9b7-").length = 14 := by decide +kernel

/-- The checksum of the model is the one of the standard library: its published check value. -/
example : crcString "123456789" = 0x995DC9BBDF1939FA#64 := by decide +kernel

instance (crc : String → BitVec 64) (l : List String) : Decidable (Separates crc l) := by
  unfold Separates; infer_instance

/-- Non-vacuity of C07: ordinary names are kept apart. -/
example : Separates crcString (["kube-system", "etcd-0"] ++ comps ⟨"kube-system", "etcd-0", "etcd", "sys_openat"⟩) := by
  decide +kernel

/-! ### C63 -/

/-- C63: a callback attached to a job with a non-empty id receives exactly the events
published for that id (as far as the checksum keeps the two ids apart). -/
theorem c63_trace_path (id id' : String) (h : id ≠ "") (h' : id' ≠ "") (hsep : Separates crc [id, id']) :
    tracePath crc id <+: tracePath crc id' ↔ id = id' := by
  unfold tracePath hashPath
  have hj : jobStream ≠ "" := by decide
  simp only [hashComps, hj, h, h', if_false, List.cons_prefix_cons, true_and]
  constructor
  · rintro ⟨h1, _⟩
    exact hsep id (by simp) id' (by simp) h1
  · intro e; subst e; simp

/-- C63 violated for a trace that has no job id yet: it is attached to the events of every
job. -/
theorem c63_empty_id_violated (id' : String) : tracePath crc "" <+: tracePath crc id' := by
  unfold tracePath hashPath
  have hj : jobStream ≠ "" := by decide
  by_cases h' : id' = ""
  · rw [h']; exact List.prefix_refl _
  · simp [hashComps, hj, h']

/-- C63: the two streams never mix, whatever the components and ids: no namespace subscription
receives events published for jobs and no job subscription receives events published for
namespaces. -/
theorem c63_streams_disjoint (paths : List String) (id : String) (e : EvPath) :
    ¬ attachPath crcString paths <+: tracePath crcString id ∧
    ¬ tracePath crcString id <+: eventPath crcString e := by
  have hne : hash crcString nsStream ≠ hash crcString jobStream := by decide +kernel
  have h1 : nsStream ≠ "" := by decide
  have h2 : jobStream ≠ "" := by decide
  unfold attachPath tracePath eventPath hashPath
  simp only [hashComps, h1, h2, if_false, List.cons_prefix_cons, true_and]
  exact ⟨fun h => hne h.1, fun h => hne h.1.symm⟩

end Swoll.Props.Hash
