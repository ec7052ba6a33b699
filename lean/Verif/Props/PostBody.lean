import Verif.Model.PostBody
import Verif.Spec.PostBody
/-!
# C124: the body of a POST request
-/
namespace Verif.PostBody
open Spec

private theorem loop_inv {bufferSize : Nat} : ∀ (plan : List Reading) (unread : Int) (data body : List Byte) (b rest : List Byte),
    loop bufferSize plan unread data body = some (true, b, rest) →
    ∃ taken, data = taken ++ rest ∧ b = body ++ taken ∧ unread ≤ taken.length ∧
      (unread > 0 → (taken.length : Int) < unread + bufferSize ) ∧ (unread ≤ 0 → taken = []) := by
  intro plan
  induction plan with
  | nil =>
    intro unread data body b rest h
    unfold loop at h
    by_cases hu : unread > 0
    · simp [hu] at h
    · rw [if_neg hu] at h
      simp at h
      exact ⟨[], by simp [h.2], by simp [h.1], by simp; omega, by omega, fun _ => rfl⟩
  | cons r plan ih =>
    intro unread data body b rest h
    unfold loop at h
    by_cases hu : unread > 0
    · rw [if_pos hu] at h
      cases hr : r.ok with
      | false => simp [hr] at h
      | true =>
        simp only [hr, if_true] at h
        obtain ⟨taken, e1, e2, e3, e4, e5⟩ := ih _ _ _ _ _ h
        have hle : (data.take (min r.k bufferSize)).length ≤ bufferSize := by simp; omega
        refine ⟨data.take (min r.k bufferSize) ++ taken, ?_, ?_, ?_, ?_, ?_⟩
        · rw [List.append_assoc, ← e1, List.take_append_drop]
        · rw [e2, List.append_assoc]
        · rw [List.length_append]; omega
        · intro _
          rw [List.length_append]
          by_cases hp : unread - ((data.take (min r.k bufferSize)).length : Int) > 0
          · have := e4 hp; omega
          · have hz := e5 (by omega)
            rw [hz]
            simp only [List.length_nil]
            omega
        · intro hn; omega
    · rw [if_neg hu] at h
      simp at h
      exact ⟨[], by simp [h.2], by simp [h.1], by simp; omega, by omega, fun _ => rfl⟩

/-- **C124.** However the socket cuts it, a body that is accepted begins with the bytes announced, has no byte that was not sent and none twice; and it is
just the bytes announced when the client sends nothing more. -/
theorem c124_body_partial {bufferSize length : Nat} {hasType : Bool} {plan : List Reading} {data body rest : List Byte}
    (h : read bufferSize hasType length plan data = some (true, body, rest)) :
    data = body ++ rest ∧ length ≤ body.length ∧ body.length < length + bufferSize ∧ hasType = true ∧ 0 < length ∧
    (data.length = length → IsBody length data body rest ∧ rest = []) := by
  unfold read at h
  by_cases hc : hasType = true ∧ (length : Int) > 0
  · rw [if_pos hc] at h
    obtain ⟨taken, e1, e2, e3, e4, _⟩ := loop_inv _ _ _ _ _ _ h
    simp at e2
    subst e2
    have h4 := e4 hc.2
    refine ⟨e1, by omega, by omega, hc.1, by omega, ?_⟩
    intro hd
    have hlen := congrArg List.length e1
    rw [List.length_append] at hlen
    have hz : rest = [] := List.length_eq_zero_iff.mp (by omega)
    exact ⟨⟨by omega, e1⟩, hz⟩
  · rw [if_neg hc] at h
    simp at h

private theorem loop_defined {bufferSize : Nat} (hb : 0 < bufferSize) : ∀ (plan : List Reading) (unread : Int) (data body : List Byte),
    (∀ r ∈ plan, r.ok = true ∧ 0 < r.k) → unread ≤ plan.length → unread ≤ data.length →
    ∃ b rest, loop bufferSize plan unread data body = some (true, b, rest) := by
  intro plan
  induction plan with
  | nil =>
    intro unread data body _ hl _
    refine ⟨body, data, ?_⟩
    unfold loop
    rw [if_neg (by simpa using hl)]
  | cons r plan ih =>
    intro unread data body hp hl hd
    unfold loop
    by_cases hu : unread > 0
    · rw [if_pos hu]
      have hr := hp r (by simp)
      simp only [hr.1, if_true]
      have h1 : (data.take (min r.k bufferSize)).length = min (min r.k bufferSize) data.length := by simp
      have h2 : (data.drop (min r.k bufferSize)).length = data.length - min r.k bufferSize := by simp
      simp only [List.length_cons] at hl
      refine ih _ _ _ (fun x hx => hp x (List.mem_cons_of_mem _ hx)) ?_ ?_
      · omega
      · omega
    · rw [if_neg hu]
      exact ⟨body, data, rfl⟩

/-- **C124.** A request with its type and its length whose bytes all come, in whatever pieces, is accepted. -/
theorem c124_accepted {bufferSize length : Nat} (hb : 0 < bufferSize) (hn : 0 < length) (plan : List Reading) (data : List Byte)
    (hp : ∀ r ∈ plan, r.ok = true ∧ 0 < r.k) (hl : length ≤ plan.length) (hd : length ≤ data.length) :
    ∃ body rest, read bufferSize true length plan data = some (true, body, rest) := by
  unfold read
  rw [if_pos ⟨rfl, by omega⟩]
  exact loop_defined hb _ _ _ _ hp (by omega) (by omega)

/-- **C124.** A request whose bytes do not all come is never accepted. -/
theorem c124_short {bufferSize length : Nat} {hasType : Bool} {plan : List Reading} {data body rest : List Byte} (hd : data.length < length) :
    read bufferSize hasType length plan data ≠ some (true, body, rest) := by
  intro h
  obtain ⟨e, hl, _⟩ := c124_body_partial h
  have := congrArg List.length e
  rw [List.length_append] at this
  omega

/-- **C124 fails when the client sends its next request at once**: the beginning of that request becomes the end of this body, and is lost to the next. -/
theorem c124_next_fails {bufferSize : Nat} (body next : List Byte) (hb : 0 < body.length) (hn : next ≠ []) (hs : (body ++ next).length ≤ bufferSize)
    (r : Reading) (plan : List Reading) (hr : r.ok = true) (hk : (body ++ next).length ≤ r.k) :
    read bufferSize true body.length (r :: plan) (body ++ next) = some (true, body ++ next, []) ∧
    ¬ IsBody body.length (body ++ next) (body ++ next) [] := by
  constructor
  · unfold read
    rw [if_pos ⟨rfl, by omega⟩]
    unfold loop
    rw [if_pos (by omega)]
    simp only [hr, if_true]
    rw [List.take_of_length_le (by omega), List.drop_of_length_le (by omega)]
    unfold loop
    rw [if_neg (by rw [List.length_append]; omega)]
    simp
  · rintro ⟨h, _⟩
    rw [List.length_append] at h
    exact hn (List.length_eq_zero_iff.mp (by omega))

/-- A body of five bytes in three pieces. -/
example : read 1024 true 5 [⟨true, 2⟩, ⟨true, 2⟩, ⟨true, 9⟩, ⟨true, 9⟩] [1, 2, 3, 4, 5] = some (true, [1, 2, 3, 4, 5], []) := by
  simp [read, loop]

end Verif.PostBody
