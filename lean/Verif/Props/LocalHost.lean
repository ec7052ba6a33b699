import Verif.Spec.LocalHost
/-!
# C134: the name and the addresses of the local host
-/
namespace Verif.LocalHost
open Spec

private theorem number_eq {ip : Ip} (h : Bytes ip) : number ip = value [ip.a, ip.b, ip.c, ip.d] := by
  obtain ⟨h1, h2, h3, h4⟩ := h
  unfold number value value value value value
  omega

private theorem answer_eq {name : Text} {ip : Ip} (h : Bytes ip) (q : Ask) : answer ⟨some name, some ip, true, false⟩ q = right name ip q := by
  cases q with
  | name => rfl
  | address => rfl
  | asNumber => show Answer.asNumber (number ip) = _; rw [number_eq h]; rfl

private theorem run_done {name : Text} {ip : Ip} (h : Bytes ip) : ∀ qs : List (Ask × Lookup × Lookup),
    run (some ⟨some name, some ip, true, false⟩) qs = some (qs.map fun q => right name ip q.1)
  | [] => rfl
  | (q, o₁, o₂) :: qs => by
    have e : get o₁ o₂ (some ⟨some name, some ip, true, false⟩) = some ⟨some name, some ip, true, false⟩ := rfl
    rw [run, e]
    dsimp only
    rw [run_done h qs, answer_eq h]
    rfl

/-- **C134.** When the operating system knows the name and the address of the host at the first question, every question of every history returns, with that
name, that address and the number of it, whatever the operating system knows later. -/
theorem c134_answers_partial {name : Text} {ip : Ip} (h : Bytes ip) (q : Ask) (o : Lookup) (qs : List (Ask × Lookup × Lookup)) :
    run none ((q, .complete name ip, o) :: qs) = some (right name ip q :: qs.map fun q => right name ip q.1) := by
  have e : get (.complete name ip) o none = some ⟨some name, some ip, true, false⟩ := rfl
  rw [run, e]
  dsimp only
  rw [run_done h qs, answer_eq h]
  rfl

/-- **C134.** Two addresses have the same number only if they are the same. -/
theorem c134_number {x y : Ip} (hx : Bytes x) (hy : Bytes y) (h : number x = number y) : x = y := by
  obtain ⟨a, b, c, d⟩ := x
  obtain ⟨a', b', c', d'⟩ := y
  obtain ⟨h1, h2, h3, h4⟩ := hx
  obtain ⟨g1, g2, g3, g4⟩ := hy
  dsimp only at h1 h2 h3 h4 g1 g2 g3 g4
  unfold number at h
  dsimp only at h
  have : a = a' ∧ b = b' ∧ c = c' ∧ d = d' := by omega
  obtain ⟨rfl, rfl, rfl, rfl⟩ := this
  rfl

/-- **C134 fails when the operating system does not know the host at the first question**: the lock is left taken, and the first question never returns,
whatever the operating system knows a moment later. -/
theorem c134_unknown_fails (q : Ask) (o₁ o₂ : Lookup) (qs : List (Ask × Lookup × Lookup)) (h : ∀ name ip, o₁ ≠ .complete name ip) :
    run none ((q, o₁, o₂) :: qs) = none := by
  cases o₁ with
  | complete name ip => exact absurd rfl (h name ip)
  | unknown => rfl
  | nameOnly n => rfl
  | otherLength n => rfl

/-- **C134 fails for the name of an interface** that is shorter than fourteen bytes: it is read outside of the array that holds it. -/
theorem c134_interface_fails {array text : List Nat} (h : Holds array text) (hl : text.length < 14) (opened : Nat) :
    mac opened array = none ∧ interfaceAddress opened array = none := by
  have : ¬ nameSize - 1 ≤ array.length := by
    rw [h.1, List.length_append]
    show ¬ 15 ≤ text.length + 1
    omega
  unfold mac interfaceAddress copyName
  rw [if_neg this]
  exact ⟨rfl, rfl⟩

/-- **C134.** A name in an array that is long enough is copied up to its first fifteen bytes, and asking for the address of an interface leaves no descriptor
open. -/
theorem c134_interface_partial {array : List Nat} (h : 15 ≤ array.length) (opened : Nat) :
    copyName array = some (array.take 15) ∧ interfaceAddress opened array = some opened := by
  have : nameSize - 1 ≤ array.length := h
  unfold interfaceAddress copyName
  rw [if_pos this]
  exact ⟨rfl, rfl⟩

/-- **C134 fails for the address of an interface in its hardware**: each question leaves one more descriptor open. -/
theorem c134_open_fails {array : List Nat} (h : 15 ≤ array.length) : ∀ n opened : Nat,
    (List.replicate n array).foldlM mac opened = some (opened + n)
  | 0, _ => rfl
  | n + 1, opened => by
    have e : mac opened array = some (opened + 1) := by
      have : nameSize - 1 ≤ array.length := h
      unfold mac copyName
      rw [if_pos this]; rfl
    rw [List.replicate_succ, List.foldlM_cons, e]
    show (List.replicate n array).foldlM mac (opened + 1) = _
    rw [c134_open_fails h n (opened + 1)]
    congr 1
    omega

/-- A host that is known. -/
example : Bytes ⟨192, 168, 1, 7⟩ ∧ run none [(.name, .complete ['h'] ⟨192, 168, 1, 7⟩, .unknown), (.asNumber, .unknown, .unknown)] =
    some [.name (some ['h']), .asNumber 117549248] := ⟨⟨by decide, by decide, by decide, by decide⟩, by decide⟩

end Verif.LocalHost
