import Verif.Model.Heaps
import Verif.Spec.Heaps
set_option maxRecDepth 8000
set_option linter.unusedSimpArgs false
namespace Verif.Heaps
open Verif.Spec.Heaps (Inside NotLarger)

theorem setFirst_some (h : Nat) : ∀ (s s' : List (Option Nat)), setFirst h s = some s' →
    (s'.filterMap id).Perm (h :: s.filterMap id) ∧ s'.length = s.length ∧ (s.filterMap id).length < s.length := by
  intro s
  induction s with
  | nil => simp [setFirst]
  | cons x s ih =>
    intro s' e
    have hle : (s.filterMap id).length ≤ s.length := List.length_filterMap_le _ _
    cases x with
    | none =>
      simp only [setFirst, Option.some.injEq] at e
      subst e
      refine ⟨by simp, by simp, by simp; omega⟩
    | some g =>
      simp only [setFirst, Option.map_eq_some_iff] at e
      obtain ⟨t, et, rfl⟩ := e
      obtain ⟨h1, h2, h3⟩ := ih t et
      refine ⟨?_, by simp [h2], by simpa using h3⟩
      simpa using (h1.cons g).trans (List.Perm.swap h g _)

theorem setFirst_none (h : Nat) : ∀ (s : List (Option Nat)), setFirst h s = none → (s.filterMap id).length = s.length := by
  intro s
  induction s with
  | nil => simp
  | cons x s ih =>
    intro e
    cases x with
    | none => simp [setFirst] at e
    | some g => simp only [setFirst, Option.map_eq_none_iff] at e; simpa using ih e

theorem remove_some (h : Nat) : ∀ (s : List (Option Nat)), (removeHeap (some h) s).1 = decide (some h ∈ s) ∧
    (removeHeap (some h) s).2.length = s.length ∧ ((removeHeap (some h) s).2.filterMap id) = (s.filterMap id).erase h := by
  intro s
  induction s with
  | nil => simp [removeHeap]
  | cons x s ih =>
    rw [removeHeap]
    obtain ⟨h1, h2, h3⟩ := ih
    by_cases hx : x = some h
    · subst hx; simp
    · rw [if_neg hx]
      refine ⟨?_, by simp [h2], ?_⟩
      · simp only [h1, List.mem_cons, eq_comm (a := some h) (b := x), hx, false_or]
      · cases x with
        | none => simp [h3]
        | some g =>
          have hg : g ≠ h := fun e => hx (by rw [e])
          simp [h3, List.erase_cons, hg]

theorem remove_none : ∀ (s : List (Option Nat)), removeHeap none s = (decide (none ∈ s), s) := by
  intro s
  induction s with
  | nil => rfl
  | cons x s ih =>
    rw [removeHeap, ih]
    cases x <;> simp

theorem mem_reg (s : List (Option Nat)) (h : Nat) : h ∈ s.filterMap id ↔ some h ∈ s := by simp

theorem owns_iff (h : Heap) (a : Nat) : h.owns a = true ↔ Inside h a := by simp [Heap.owns, Inside]

theorem span_eq (h : Heap) (a : Nat) (hi : Inside h a) (hl : h.last < 18446744073709551616) : h.span = h.last - h.first := by
  obtain ⟨h1, h2⟩ := hi
  unfold Heap.span
  omega

theorem findLoop_some (info : Nat → Heap) (a : Nat) (s : List (Option Nat))
    (hl : ∀ h, some h ∈ s → (info h).last < 18446744073709551616) : ∀ (f : Nat),
    Inside (info f) a → ∃ r, findLoop info a s (some f) ((info f).last - (info f).first) = some r ∧
      (r = f ∨ some r ∈ s) ∧ Inside (info r) a ∧ NotLarger (info r) (info f) ∧
      ∀ g, some g ∈ s → Inside (info g) a → NotLarger (info r) (info g) := by
  induction s with
  | nil => intro f hf; exact ⟨f, rfl, Or.inl rfl, hf, Nat.le_refl _, by simp⟩
  | cons x s ih =>
    intro f hf
    have ih := ih fun h hh => hl h (by simp [hh])
    cases x with
    | none =>
      obtain ⟨r, e, h1, h2, h3, h4⟩ := ih f hf
      exact ⟨r, e, by rcases h1 with h1 | h1 <;> simp [h1], h2, h3, by simpa using h4⟩
    | some h =>
      rw [findLoop]
      by_cases ho : (info h).owns a = true
      · have hin := (owns_iff _ _).mp ho
        have hsp := span_eq _ _ hin (hl h (by simp))
        rw [if_pos ho]
        simp only [hsp]
        split
        · rename_i hlt
          obtain ⟨r, e, h1, h2, h3, h4⟩ := ih h hin
          refine ⟨r, e, Or.inr ?_, h2, ?_, ?_⟩
          · rcases h1 with h1 | h1 <;> simp [h1]
          · unfold NotLarger at h3 ⊢; omega
          · intro g hg hgi
            simp only [List.mem_cons, Option.some.injEq] at hg
            rcases hg with rfl | hg
            · exact h3
            · exact h4 g hg hgi
        · rename_i hlt
          obtain ⟨r, e, h1, h2, h3, h4⟩ := ih f hf
          refine ⟨r, e, ?_, h2, h3, ?_⟩
          · rcases h1 with h1 | h1 <;> simp [h1]
          · intro g hg hgi
            simp only [List.mem_cons, Option.some.injEq] at hg
            rcases hg with rfl | hg
            · unfold NotLarger at h3 ⊢; omega
            · exact h4 g hg hgi
      · rw [if_neg ho]
        obtain ⟨r, e, h1, h2, h3, h4⟩ := ih f hf
        refine ⟨r, e, ?_, h2, h3, ?_⟩
        · rcases h1 with h1 | h1 <;> simp [h1]
        · intro g hg hgi
          simp only [List.mem_cons, Option.some.injEq] at hg
          rcases hg with rfl | hg
          · exact absurd ((owns_iff _ _).mpr hgi) ho
          · exact h4 g hg hgi

theorem findLoop_none (info : Nat → Heap) (a : Nat) (s : List (Option Nat))
    (hl : ∀ h, some h ∈ s → (info h).last < 18446744073709551616) (sp : Nat) :
    (findLoop info a s none sp = none ∧ ∀ g, some g ∈ s → ¬ Inside (info g) a) ∨
    ∃ r, findLoop info a s none sp = some r ∧ some r ∈ s ∧ Inside (info r) a ∧
      ∀ g, some g ∈ s → Inside (info g) a → NotLarger (info r) (info g) := by
  induction s with
  | nil => exact Or.inl ⟨rfl, by simp⟩
  | cons x s ih =>
    have ih := ih fun h hh => hl h (by simp [hh])
    cases x with
    | none =>
      rw [findLoop]
      rcases ih with ⟨e, h⟩ | ⟨r, e, h1, h2, h3⟩
      · exact Or.inl ⟨e, by simpa using h⟩
      · exact Or.inr ⟨r, e, by simp [h1], h2, by simpa using h3⟩
    | some h =>
      rw [findLoop]
      by_cases ho : (info h).owns a = true
      · have hin := (owns_iff _ _).mp ho
        rw [if_pos ho]
        simp only [span_eq _ _ hin (hl h (by simp))]
        obtain ⟨r, e, h1, h2, h3, h4⟩ := findLoop_some info a s (fun h hh => hl h (by simp [hh])) h hin
        refine Or.inr ⟨r, e, ?_, h2, ?_⟩
        · rcases h1 with h1 | h1 <;> simp [h1]
        · intro g hg hgi
          simp only [List.mem_cons, Option.some.injEq] at hg
          rcases hg with rfl | hg
          · exact h3
          · exact h4 g hg hgi
      · rw [if_neg ho]
        have hno : ∀ g, g = h → ¬ Inside (info g) a := by
          rintro g rfl hi; exact ho ((owns_iff _ _).mpr hi)
        rcases ih with ⟨e, hn⟩ | ⟨r, e, h1, h2, h3⟩
        · refine Or.inl ⟨e, ?_⟩
          intro g hg
          simp only [List.mem_cons, Option.some.injEq] at hg
          rcases hg with hg | hg
          · exact hno g hg
          · exact hn g hg
        · refine Or.inr ⟨r, e, by simp [h1], h2, ?_⟩
          intro g hg hgi
          simp only [List.mem_cons, Option.some.injEq] at hg
          rcases hg with hg | hg
          · exact absurd hgi (hno g hg)
          · exact h3 g hg hgi

/-! ## The standard heap -/

/-- The range of `t` includes that of `s`. -/
def Wider (s t : Std) : Prop := (s.first ≠ 0 → t.first ≠ 0 ∧ t.first ≤ s.first) ∧ s.last ≤ t.last

theorem Wider.refl (s : Std) : Wider s s := ⟨fun h => ⟨h, Nat.le_refl _⟩, Nat.le_refl _⟩

theorem Wider.trans {s t u : Std} (h : Wider s t) (g : Wider t u) : Wider s u := by
  refine ⟨fun hs => ?_, Nat.le_trans h.2 g.2⟩
  have h1 := h.1 hs
  have h2 := g.1 h1.1
  exact ⟨h2.1, Nat.le_trans h2.2 h1.2⟩

theorem take_spec (s : Std) (a n : Nat) (ha : a ≠ 0) (hn : a + n < 18446744073709551616) :
    Wider s (s.take a n) ∧ (s.take a n).first ≠ 0 ∧ (s.take a n).first ≤ a ∧ a + n ≤ (s.take a n).last := by
  have hm : (a + n) % 18446744073709551616 = a + n := Nat.mod_eq_of_lt hn
  simp only [Std.take, hm, Wider]
  refine ⟨⟨?_, ?_⟩, ?_, ?_, ?_⟩
  · intro h; split <;> omega
  · split <;> omega
  · split <;> omega
  · split <;> omega
  · split <;> omega

theorem take_live (s : Std) (l : List Nat) (a n : Nat) : Wider s (({ s with live := l } : Std).take a n) ↔ Wider s (s.take a n) := by
  simp [Wider, Std.take]

end Verif.Heaps
