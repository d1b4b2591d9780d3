import Verif.Model.FakeMpi
import Mathlib.Tactic

/-!
# Properties of the substitute for MPI
-/

namespace OpenMS.FakeMpi

variable {X : Type*}

/-- What MPI puts into the receiving array of the only process. -/
def realScatterv (buf : List X) (counts displs : List ℕ) : List X :=
  (buf.drop (displs.getD 0 0)).take (counts.getD 0 0)

/-- What MPI puts into the array of the root when the only process sends `send`. -/
def realGatherv (buf send : List X) (displs : List ℕ) : List X :=
  buf.take (displs.getD 0 0) ++ send ++ buf.drop (displs.getD 0 0 + send.length)

/-- **C105.** The operations on plain arrays deliver what the only process has sent. -/
theorem collective_spec (send recv : List X) (h : send.length = recv.length) :
    collective send recv = .ok send ∧ scatterv (.array send) recv = .ok send ∧
      gatherv send (.array recv) = .ok send ∧ gather send = [send] ∧
      scatter [send] = .ok send := by
  simp [collective, scatterv, gatherv, assign, h, gather, scatter]

/-- **C105.** Other shapes are refused, with one exception: an array with one element is copied into
all places of the receiver. -/
theorem wrong_shape (send recv : List X) (rows : List (List X)) (r : List X) :
    (scatter rows = .ok r ↔ rows = [r]) ∧
    ((∃ l, collective send recv = .ok l) ↔ send.length = recv.length ∨ send.length = 1) ∧
    (∀ x, send = [x] → collective send recv = .ok (List.replicate recv.length x)) := by
  refine ⟨?_, ?_, ?_⟩
  · match rows with
    | [] => simp [scatter]
    | [a] => simp [scatter]
    | a :: b :: c => simp [scatter]
  · unfold collective assign
    by_cases h : send.length = recv.length
    · simp [h]
    · rw [if_neg h]
      match send, h with
      | [], h => simp at h ⊢; exact h
      | [x], h => simp
      | x :: y :: z, h => simp at h ⊢; exact h
  · rintro x rfl
    unfold collective assign
    by_cases h : [x].length = recv.length
    · rw [if_pos h, ← h]
      rfl
    · rw [if_neg h]
      simp [List.map_const']

/-- **C105, disagreement.** `Scatterv` with counts and displacements raises for every input, also in
the only place where it is called (`propagators.py` L633, option `debug_mpi`). -/
theorem scatterv_fails (buf recv : List X) (counts displs : List ℕ) :
    scatterv (.spec buf counts displs) recv ≠ .ok (realScatterv buf counts displs) := by
  simp [scatterv]

/-- **C105, disagreement.** `Gatherv` with counts and displacements leaves the array of the root as
it was: MPI would give the data sent, so the two agree only if they were there before. -/
theorem gatherv_fails (buf send : List X) (counts displs : List ℕ)
    (h : displs.getD 0 0 + send.length ≤ buf.length) :
    (gatherv send (.spec buf counts displs) = .ok (realGatherv buf send displs)) ↔
      (buf.drop (displs.getD 0 0)).take send.length = send := by
  have hb : buf = buf.take (displs.getD 0 0) ++ (buf.drop (displs.getD 0 0)).take send.length ++
      buf.drop (displs.getD 0 0 + send.length) := by
    rw [List.append_assoc, ← List.drop_drop, List.take_append_drop, List.take_append_drop]
  simp only [gatherv, Except.ok.injEq, realGatherv]
  constructor
  · intro e
    rw [e]
    have hl : (buf.take (displs.getD 0 0)).length = displs.getD 0 0 := by
      rw [List.length_take]; omega
    rw [List.append_assoc, List.drop_append_of_le_length (by omega)]
    rw [List.drop_of_length_le (by omega), List.nil_append, List.take_left]
  · intro e
    conv_lhs => rw [hb]
    rw [e]

/-- At most one message per tag is pending at any time and every receive has a message. -/
def Alternating : (ℕ → Bool) → List (Op X) → Prop
  | _, [] => True
  | p, .send t _ :: ops => p t = false ∧ Alternating (fun s => if s = t then true else p s) ops
  | p, .recv t :: ops => p t = true ∧ Alternating (fun s => if s = t then false else p s) ops

theorem messages_aux (ops : List (Op X)) : ∀ (p : ℕ → Bool) (buf : ℕ → Option X) (q : ℕ → List X),
    Alternating p ops → (∀ t, p t = false → q t = []) →
    (∀ t, p t = true → ∃ x, q t = [x] ∧ buf t = some x) →
    real q ops = some (fake buf ops) := by
  induction ops with
  | nil => intros; rfl
  | cons o ops ih =>
    intro p buf q ha h0 h1
    cases o with
    | send t x =>
      simp only [Alternating] at ha
      simp only [real, fake]
      refine ih _ _ _ ha.2 ?_ ?_
      · intro s hs
        by_cases e : s = t
        · simp [e] at hs
        · simp only [e, if_false] at hs ⊢; exact h0 s hs
      · intro s hs
        by_cases e : s = t
        · subst e; exact ⟨x, by simp [h0 s ha.1], by simp⟩
        · simp only [e, if_false] at hs ⊢; exact h1 s hs
    | recv t =>
      simp only [Alternating] at ha
      obtain ⟨x, hq, hb⟩ := h1 t ha.1
      simp only [real, fake, hq, hb]
      rw [ih _ buf _ ha.2]
      · rfl
      · intro s hs
        by_cases e : s = t
        · simp [e]
        · simp only [e, if_false] at hs ⊢; exact h0 s hs
      · intro s hs
        by_cases e : s = t
        · simp [e] at hs
        · simp only [e, if_false] at hs ⊢; exact h1 s hs

/-- **C105, proved part.** If at most one message per tag is pending at any time, every message sent is
received as with MPI. -/
theorem messages_partial (ops : List (Op X)) (h : Alternating (fun _ => false) ops) :
    real (fun _ => []) ops = some (fake (fun _ => none) ops) :=
  messages_aux ops _ _ _ h (fun _ _ => rfl) (by simp)

/-- **C105, disagreement.** Two messages with the same tag: MPI delivers both in order, the substitute
delivers the second one twice. -/
theorem messages_fails (t : ℕ) (x y : X) :
    real (fun _ => []) [.send t x, .send t y, .recv t, .recv t] = some [some x, some y] ∧
    fake (fun _ => none) [.send t x, .send t y, .recv t, .recv t] = [some y, some y] := by
  simp [real, fake]

example : Alternating (X := ℕ) (fun _ => false) [.send 1 5, .send 2 6, .recv 1, .send 1 7, .recv 2, .recv 1] := by
  simp [Alternating]

end OpenMS.FakeMpi
