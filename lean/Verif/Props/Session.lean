import Verif.Model.Session
/-
C108 An idle stream stays open, and a dead one is noticed.
-/
namespace Swoll.Props.Session
open Swoll.Session

/-- Every ping of the session so far has been answered: the `n`-th pong was read after the `n`-th ping was
sent and no more than `delay` later. (Specification.) -/
def Answered (p : Side) (o delay : Nat) (pongs : List Nat) : Prop :=
  ∀ (n t : Nat), pongs[n]? = some t → o + p.period * (n + 1) ≤ t ∧ t ≤ o + p.period * (n + 1) + delay

theorem expiry_answered (p : Side) (o delay : Nat) (hd : p.period + delay < p.wait) :
    ∀ (pongs : List Nat) (k d : Nat), o + p.period * k + p.wait ≤ d →
      (∀ (n t : Nat), pongs[n]? = some t →
        o + p.period * (k + n + 1) ≤ t ∧ t ≤ o + p.period * (k + n + 1) + delay) →
      o + p.period * (k + pongs.length) + p.wait ≤ expiry p d pongs := by
  intro pongs
  induction pongs with
  | nil => intro k d h _; simpa [expiry] using h
  | cons t ts ih =>
    intro k d h ha
    have h0 := ha 0 t rfl
    simp only [Nat.add_zero] at h0
    have hm : p.period * (k + 1) = p.period * k + p.period := by rw [Nat.mul_add, Nat.mul_one]
    have hlt : t < d := by omega
    rw [expiry, if_pos hlt]
    have := ih (k + 1) (t + p.wait) (by omega) (by
      intro n u hu
      have := ha (n + 1) u (by simpa using hu)
      have he : k + 1 + n + 1 = k + (n + 1) + 1 := by omega
      rw [he]; exact this)
    have he : k + (t :: ts).length = k + 1 + ts.length := by simp only [List.length_cons]; omega
    rw [he]; exact this

/-- A stream on which nothing happens but pings stays open for ever: after any number of pings answered in
less than a tenth of the time waited for them, a whole `wait` is left from the last ping. -/
theorem c108_idle_partial (p : Side) (o delay : Nat) (hd : p.period + delay < p.wait) (pongs : List Nat)
    (ha : Answered p o delay pongs) : pingAt p o pongs.length + p.wait ≤ readsUntil p o pongs := by
  have := expiry_answered p o delay hd pongs 0 (o + p.wait) (by simp) (by
    intro n t h
    have := ha n t h
    simpa using this)
  simpa [pingAt, readsUntil] using this

/-- For the server that is less than three seconds. -/
theorem c108_idle_server_partial (o delay : Nat) (hd : delay < 3000) (pongs : List Nat)
    (ha : Answered server o delay pongs) :
    o + 27000 * (pongs.length + 1) + 3000 ≤ readsUntil server o pongs := by
  have h := c108_idle_partial server o delay (by simp [server, side]; omega) pongs ha
  generalize readsUntil server o pongs = r at *
  have hp : server.period = 27000 := by decide
  have hw : server.wait = 30000 := by decide
  unfold pingAt at h
  rw [hp, hw] at h
  rw [Nat.mul_add]
  clear ha hp hw hd
  generalize pongs.length = n at *
  exact Nat.le_trans (Nat.le_of_eq (by simp only [Nat.add_assoc, Nat.mul_one])) h

/-- For the client less than six. -/
theorem c108_idle_client_partial (o delay : Nat) (hd : delay < 6000) (pongs : List Nat)
    (ha : Answered client o delay pongs) :
    o + 54000 * (pongs.length + 1) + 6000 ≤ readsUntil client o pongs := by
  have h := c108_idle_partial client o delay (by simp [client, side]; omega) pongs ha
  generalize readsUntil client o pongs = r at *
  have hp : client.period = 54000 := by decide
  have hw : client.wait = 60000 := by decide
  unfold pingAt at h
  rw [hp, hw] at h
  rw [Nat.mul_add]
  clear ha hp hw hd
  generalize pongs.length = n at *
  exact Nat.le_trans (Nat.le_of_eq (by simp only [Nat.add_assoc, Nat.mul_one])) h

theorem expiry_silent (p : Side) (last : Nat) : ∀ (pongs : List Nat) (d : Nat), d ≤ last + p.wait →
    (∀ t ∈ pongs, t ≤ last) → expiry p d pongs ≤ last + p.wait := by
  intro pongs
  induction pongs with
  | nil => intro d h _; exact h
  | cons t ts ih =>
    intro d h hp
    rw [expiry]
    split
    · exact ih _ (by have := hp t (by simp); omega) (fun u hu => hp u (by simp [hu]))
    · exact h

/-- A peer that has gone is noticed: reading ends no later than `wait` after its last sign of life. -/
theorem c108_dead (p : Side) (o last : Nat) (ho : o ≤ last) (pongs : List Nat) (h : ∀ t ∈ pongs, t ≤ last) :
    readsUntil p o pongs ≤ last + p.wait :=
  expiry_silent p last pongs _ (by omega) h

theorem endingPing_spec (o e : Nat) : ∀ (fuel n : Nat), 1 ≤ n → e ≤ pingAt server o (n + fuel) →
    (n = 1 ∨ pingAt server o (n - 1) < e) →
    e ≤ pingAt server o (endingPing o e fuel n) ∧ 1 ≤ endingPing o e fuel n ∧
      (endingPing o e fuel n = 1 ∨ pingAt server o (endingPing o e fuel n - 1) < e) := by
  intro fuel
  induction fuel with
  | zero => intro n hn h hb; exact ⟨by simpa [endingPing] using h, hn, hb⟩
  | succ fuel ih =>
    intro n hn h hb
    rw [endingPing]
    split
    · rename_i he; exact ⟨by simpa [notices] using he, hn, hb⟩
    · rename_i he
      refine ih (n + 1) (by omega) (by have : n + 1 + fuel = n + (fuel + 1) := by omega
                                       rw [this]; exact h) (.inr ?_)
      simpa [notices] using he

/-- The server unsubscribes a websocket after its reading has ended, and no later than one ping after. -/
theorem c108_unsubscribed (o : Nat) (pongs : List Nat) :
    readsUntil server o pongs ≤ unsubscribedAt o pongs ∧
      unsubscribedAt o pongs ≤ max (readsUntil server o pongs) o + 27000 := by
  have hf : readsUntil server o pongs ≤ pingAt server o (1 + (readsUntil server o pongs + 1)) := by
    simp only [pingAt, server, side]; omega
  obtain ⟨h1, h2, h3⟩ := endingPing_spec o (readsUntil server o pongs) _ 1 (by omega) hf (.inl rfl)
  refine ⟨h1, ?_⟩
  unfold unsubscribedAt
  rcases h3 with h3 | h3
  · rw [h3]; simp only [pingAt, server, side]; omega
  · generalize endingPing o (readsUntil server o pongs) (readsUntil server o pongs + 1) 1 = n at *
    simp only [pingAt, server, side] at h3 ⊢
    omega

/-- So a client that has vanished is forgotten within a minute. -/
theorem c108_forgotten (o last : Nat) (ho : o ≤ last) (pongs : List Nat) (h : ∀ t ∈ pongs, t ≤ last) :
    unsubscribedAt o pongs ≤ last + 57000 := by
  have h1 := c108_dead server o last ho pongs h
  have h2 := (c108_unsubscribed o pongs).2
  generalize readsUntil server o pongs = r at *
  simp only [server, side] at h1
  omega

/-- And not while it answers. -/
theorem c108_not_forgotten_partial (o delay : Nat) (hd : delay < 3000) (pongs : List Nat)
    (ha : Answered server o delay pongs) : o + 27000 * (pongs.length + 1) + 3000 ≤ unsubscribedAt o pongs :=
  Nat.le_trans (c108_idle_server_partial o delay hd pongs ha) (c108_unsubscribed o pongs).1

example : Answered server 5000 2000 [32000, 61000, 87500] := by
  intro n t h
  match n, h with
  | 0, h => simp [server, side] at h ⊢; omega
  | 1, h => simp [server, side] at h ⊢; omega
  | 2, h => simp [server, side] at h ⊢; omega
  | n + 3, h => simp at h

example : readsUntil server 5000 [32000, 61000, 87500] = 117500 ∧
    unsubscribedAt 5000 [32000, 61000, 87500] = 140000 := by decide

/-- VIOLATED: the time allowed for an answer is called 30 seconds, but a client that takes 3 seconds to get
to each ping, as one whose output is held up, loses its stream at once. -/
theorem c108_slow_reader_violated :
    ∃ pongs, Answered server 0 3000 pongs ∧ pongs.length = 4 ∧ readsUntil server 0 pongs = 30000 := by
  refine ⟨[30000, 57000, 84000, 111000], ?_, rfl, by decide⟩
  intro n t h
  match n, h with
  | 0, h => simp [server, side] at h ⊢; omega
  | 1, h => simp [server, side] at h ⊢; omega
  | 2, h => simp [server, side] at h ⊢; omega
  | 3, h => simp [server, side] at h ⊢; omega
  | n + 4, h => simp at h

end Swoll.Props.Session
