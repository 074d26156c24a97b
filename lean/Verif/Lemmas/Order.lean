import Verif.Lemmas.SiteServe
import Verif.Spec.Service
/-
The ids of requests.
-/
namespace Swoll.Lemmas.Order
open Swoll Swoll.Site Swoll.Spec.Site Swoll.Lemmas.SiteServe
open Swoll.Cluster (Api)

variable {a : Api} {tbl : Syscalls.Syscalls} {crc : String → BitVec 64} {srt : List PubSub.Env → List PubSub.Env}

/-- The ids of the requests so far. -/
abbrev ids (s : Service.Service) : List String := s.server.threads.map (·.id)

theorem set_map {l : List (Server.Thread String)} {i : Nat} {t : Server.Thread String} (h : l[i]? = some t) (pc : Server.Pc) :
    (l.set i { t with pc := pc }).map (·.id) = l.map (·.id) := by
  rw [List.map_set]
  obtain ⟨hi, he⟩ := List.getElem?_eq_some_iff.1 h
  apply List.ext_getElem? 
  intro n
  rw [List.getElem?_set]
  split
  · next e =>
    subst e
    simp [hi, he]
  · rfl

theorem ids_advance (s : Server.State String) (i : Nat) (b : Bool) :
    (Server.step s (.step i b)).threads.map (·.id) = s.threads.map (·.id) := by
  simp only [Server.step]
  split
  · rfl
  · next t ht =>
    unfold Server.advance
    repeat' split
    all_goals first
      | rfl
      | exact set_map ht _

/-- The id a request is for. -/
def idOf : Op → Option String
  | .create _ _ q u _ _ => some (q.getD u)
  | .service (.delete id) => some id
  | _ => none

/-- The same for the server. -/
def idsOf : Service.Op → List String
  | .create q u _ _ => [q.getD u]
  | .delete id => [id]
  | _ => []

theorem ids_step {s s' : Service.Service} {op : Service.Op} {out : List Daemon.Delivery}
    (h : Service.step tbl crc srt s op = some (s', out)) : ids s' = ids s ++ idsOf op := by
  have hm := Lemmas.Service.step_moves h
  cases op with
  | create q u ok b =>
    simp only [Service.step] at h
    obtain ⟨rfl, rfl⟩ := Lemmas.Service.done_elim h
    simp [ids, idsOf, Server.step]
  | delete id =>
    simp only [Service.step] at h
    obtain ⟨rfl, rfl⟩ := Lemmas.Service.done_elim h
    simp [ids, idsOf, Server.step]
  | handle i =>
    simp only [idsOf, List.append_nil]
    cases hm with
    | idle => rfl
    | handleDelete => exact ids_advance ..
    | handleCreate => exact ids_advance ..
    | handleOther => exact ids_advance ..
  | outside o => cases hm <;> simp [idsOf]
  | notice p ev => cases hm <;> simp [idsOf]
  | work p f => cases hm <;> simp [idsOf]
  | watch w => cases hm <;> simp [idsOf]
  | attach k d => cases hm <;> simp [idsOf]
  | close k => cases hm <;> simp [idsOf]
  | ping k f => cases hm <;> simp [idsOf]

theorem serve_ids {s s' : Site} {o : Service.Op} {out : List Daemon.Delivery} (h : serve tbl crc srt s o = some (s', out)) :
    ids s'.service = ids s.service ++ idsOf o := by
  unfold serve at h
  rw [Option.map_eq_some_iff] at h
  obtain ⟨⟨x, o'⟩, h1, h2⟩ := h
  obtain ⟨rfl, rfl⟩ := Prod.mk.inj h2
  exact ids_step h1

theorem observer_ids {s s' : Site} {w : Option Nat} {f : Cluster.Watcher → Option Cluster.Watcher}
    (h : observer s w f = some s') : s'.service = s.service := by
  unfold observer at h
  split at h
  · rw [Option.map_eq_some_iff] at h
    obtain ⟨_, _, rfl⟩ := h
    rfl
  · split at h
    · injection h with h; rw [h]
    · rw [Option.map_eq_some_iff] at h
      obtain ⟨_, _, rfl⟩ := h
      rfl

theorem site_ids {s s' : Site} {op : Op} {out : List Daemon.Delivery} (h : step a tbl crc srt s op = some (s', out)) :
    ids s'.service = ids s.service ++ (idOf op).toList := by
  have obs : ∀ {w f}, (observer s w f).map (fun x => (x, ([] : List Daemon.Delivery))) = some (s', out) →
      ids s'.service = ids s.service := by
    intro w f h
    rw [Option.map_eq_some_iff] at h
    obtain ⟨x, h1, h2⟩ := h
    obtain ⟨rfl, -⟩ := Prod.mk.inj h2
    rw [ids, observer_ids h1]
  cases op with
  | put p => simp only [step] at h; obtain ⟨rfl, -⟩ := Lemmas.Service.done_elim h; simp [idOf, change]
  | remove k => simp only [step] at h; obtain ⟨rfl, -⟩ := Lemmas.Service.done_elim h; simp [idOf, change]
  | runtime l => simp only [step] at h; obtain ⟨rfl, -⟩ := Lemmas.Service.done_elim h; simp [idOf]
  | lose w => simp only [step] at h; simpa [idOf] using obs h
  | list w => simp only [step] at h; simpa [idOf] using obs h
  | handle w k => simp only [step] at h; simpa [idOf] using obs h
  | tell w =>
    cases w with
    | none =>
      simp only [step] at h
      split at h
      · obtain ⟨rfl, -⟩ := Lemmas.Service.done_elim h; simp [idOf]
      · simpa [idOf, idsOf] using serve_ids h
    | some p =>
      simp only [step] at h
      repeat' split at h
      all_goals first
        | (obtain ⟨rfl, -⟩ := Lemmas.Service.done_elim h; simp [idOf]; done)
        | simpa [idOf, idsOf] using serve_ids h
  | create ns sel q u ok b =>
    simp only [step] at h
    exact serve_ids h
  | service o =>
    simp only [step] at h
    split at h
    · next hr =>
      obtain ⟨rfl, -⟩ := Lemmas.Service.done_elim h
      cases o <;> first | (simp [idOf]; done) | cases hr
    · next hr =>
      split at h
      · exact serve_ids h
      · next hnd =>
        have := serve_ids h
        cases o with
        | create q u ok b => exact absurd rfl hr
        | delete id => exact absurd rfl (hnd id)
        | _ => simpa [idOf, idsOf] using this

theorem ids_run {ops : List Op} {s z : Site} (h : run a tbl crc srt s ops = some z) :
    ids z.service = ids s.service ++ ops.filterMap idOf := by
  induction ops generalizing s with
  | nil => injection h with h; subst h; simp
  | cons x xs ih =>
    simp only [run] at h
    split at h
    · cases h
    · next s1 out h1 =>
      rw [ih h, site_ids h1, List.append_assoc]
      congr 1
      cases hx : idOf x with
      | none => rw [List.filterMap_cons_none hx]; rfl
      | some y => rw [List.filterMap_cons_some hx]; rfl

theorem asked_length (ops : List Op) : (asked ops).length = (ops.filterMap idOf).length := by
  induction ops with
  | nil => rfl
  | cons x xs ih =>
    unfold asked at ih ⊢
    rw [List.filterMap_cons, List.filterMap_cons]
    cases x with
    | create => simp [idOf, ih]
    | service o => cases o <;> simp [idOf, ih]
    | _ => simp [idOf, ih]

/-- A request is answered for the id it asks for. -/
theorem answered_id {o : Topology.Observer} {pre mid : List Op} {x : Op} {y : String} (hx : idOf x = some y) {s : Site}
    (h : run a tbl crc srt (fresh tbl o) (pre ++ x :: mid) = some s) {id : String} {n : Nat}
    (ha : Spec.Service.Answered s.service (asked pre).length id n) : id = y := by
  have h1 := ids_run h
  have h2 : (ids s.service)[(asked pre).length]? = some id := by
    rw [ids, List.getElem?_map]
    unfold Spec.Service.Answered at ha
    rw [ha]
    rfl
  rw [h1, show ids (fresh tbl o).service = [] from rfl, List.nil_append, List.filterMap_append, asked_length,
    List.getElem?_append_right (Nat.le_refl _), Nat.sub_self, List.filterMap_cons_some hx] at h2
  injection h2 with h2
  exact h2.symm

end Swoll.Lemmas.Order
