import Verif.Spec.MemoryArea
/-!
# C121: what is added to a memory area stays at its offset
-/
set_option linter.unusedSimpArgs false
namespace Verif.MemoryArea
open Spec (Content Holds Plain)

private def Inv (a : Area) (c : Content) : Prop :=
  a.size = c.length ∧ a.lost = 0 ∧ (c = [] → a.memory = none) ∧ (c ≠ [] → ∃ m, a.memory = some m ∧ Holds m c)

private theorem fresh_length (h : Heap) (i n : Nat) : (fresh h i n).length = n := by simp [fresh]

private theorem holds_fresh (h : Heap) (n : Nat) : Holds (fresh h 0 n) (List.replicate n none) := by
  refine ⟨by simp [fresh_length], ?_⟩
  intro i x hx
  rw [List.getElem?_replicate] at hx
  split at hx <;> simp at hx

private theorem holds_append {m : List UInt8} {c : Content} (hm : Holds m c) {m' : List UInt8} {c' : Content} (hm' : Holds m' c') :
    Holds (m ++ m') (c ++ c') := by
  refine ⟨by simp [hm.1, hm'.1], ?_⟩
  intro i x hx
  rcases Nat.lt_or_ge i c.length with h | h
  · rw [List.getElem?_append_left h] at hx
    rw [List.getElem?_append_left (by rw [hm.1]; exact h)]
    exact hm.2 i x hx
  · rw [List.getElem?_append_right h] at hx
    rw [List.getElem?_append_right (by rw [hm.1]; exact h), hm.1]
    exact hm'.2 _ x hx

private theorem holds_some (l : List UInt8) : Holds l (l.map some) := by
  refine ⟨by simp, ?_⟩
  intro i x hx
  rw [List.getElem?_map] at hx
  cases hl : l[i]? with
  | none => rw [hl] at hx; simp at hx
  | some y => rw [hl] at hx; simp at hx; rw [hx]

/-- What `add` does: the old bytes, and `n` that are not known. -/
private theorem add_ok {a : Area} {c : Content} (h : Inv a c) (hp : Heap) (n : Nat) (hn : 0 < n) (hs : c.length + n < 2 ^ 32)
    (hg : hp.gives = true) : ∃ m m', add hp n a = (some c.length, ⟨some (m ++ m'), c.length + n, 0⟩) ∧ Holds m c ∧ m'.length = n := by
  obtain ⟨h1, h2, h3, h4⟩ := h
  unfold add
  by_cases hc : c = []
  · have hm := h3 hc
    subst hc
    have h1 : a.size = 0 := h1
    rw [if_pos h1]
    simp only [malloc, if_pos hg, hm, h2]
    exact ⟨[], fresh hp 0 n, by simp, ⟨rfl, by simp⟩, fresh_length _ _ _⟩
  · obtain ⟨m, hm, hh⟩ := h4 hc
    have hpos : 0 < c.length := List.length_pos_iff.2 hc
    rw [if_neg (by omega), h1, Nat.mod_eq_of_lt hs]
    simp only [realloc, if_pos hg, hm, Option.getD_some, h2]
    refine ⟨m, fresh hp m.length n, ?_, hh, fresh_length _ _ _⟩
    rw [List.take_of_length_le (by rw [hh.1]; omega), hh.1, show c.length + n - c.length = n by omega]

private theorem add_refused {a : Area} {c : Content} (h : Inv a c) (hp : Heap) (n : Nat) (hg : hp.gives = false) (hc : c = []) :
    add hp n a = (none, a) := by
  obtain ⟨h1, h2, h3, _⟩ := h
  have hm := h3 hc
  subst hc
  have h1 : a.size = 0 := h1
  unfold add
  rw [if_pos h1]
  simp only [malloc, hg, hm, h2]
  cases a
  simp_all

private theorem step_ok {a : Area} {c : Content} (h : Inv a c) (op : Op) (ops : List Op) (hp : Plain (op :: ops) c) :
    ∃ a', step op a = some ((Spec.step op c).1, a') ∧ Inv a' (Spec.step op c).2 ∧ Plain ops (Spec.step op c).2 := by
  obtain ⟨hop, hrest⟩ := hp
  suffices hh : ∃ a', step op a = some ((Spec.step op c).1, a') ∧ Inv a' (Spec.step op c).2 from
    hh.elim fun a' e => ⟨a', e.1, e.2, hrest⟩
  cases op with
  | init bytes =>
    obtain ⟨hb, _⟩ := hop
    cases c with
    | nil =>
      have hm := h.2.2.1 rfl
      refine ⟨⟨some bytes, bytes.length, a.lost⟩, by simp [step, initMemory, hm, Spec.step], ?_⟩
      refine ⟨by simp [Spec.step], h.2.1, ?_, ?_⟩
      · intro e
        exact absurd (List.map_eq_nil_iff.1 e) hb
      · intro _
        exact ⟨bytes, rfl, holds_some bytes⟩
    | cons x c =>
      obtain ⟨m, hm, _⟩ := h.2.2.2 (by simp)
      exact ⟨a, by simp [step, initMemory, hm, Spec.step], h⟩
  | add hp n =>
    obtain ⟨hn, hs, hg⟩ := hop
    cases e : hp.gives with
    | true =>
      obtain ⟨m, m', ha, hm, hm'⟩ := add_ok h hp n hn hs e
      refine ⟨⟨some (m ++ m'), c.length + n, 0⟩, by simp only [step, ha, Spec.step, if_pos e], ?_⟩
      simp only [Spec.step, if_pos e]
      refine ⟨by simp, rfl, ?_, ?_⟩
      · intro hx
        have := congrArg List.length hx
        simp at this
        omega
      · intro _
        refine ⟨_, rfl, holds_append hm ⟨by simp [hm'], ?_⟩⟩
        intro i x hx
        rw [List.getElem?_replicate] at hx
        split at hx <;> simp at hx
    | false =>
      have hc := hg e
      refine ⟨a, by simp [step, Spec.step, e, add_refused h hp n e hc], ?_⟩
      simpa [Spec.step, e] using h
  | addFrom hp src =>
    obtain ⟨hn, hs, hg⟩ := hop
    cases e : hp.gives with
    | true =>
      obtain ⟨m, m', ha, hm, hm'⟩ := add_ok h hp src.length (List.length_pos_iff.2 hn) hs e
      have hput : put (m ++ m') c.length src = some (m ++ src) := by
        unfold put
        rw [if_pos (by simp [hm.1, hm'])]
        rw [← hm.1, List.take_left, List.drop_of_length_le (by simp [hm'])]
        simp
      refine ⟨⟨some (m ++ src), c.length + src.length, 0⟩, ?_, ?_⟩
      · simp only [step, addFrom, ha, Spec.step, if_pos e]
        rw [hput]
        rfl
      · simp only [Spec.step, if_pos e]
        refine ⟨by simp, rfl, ?_, ?_⟩
        · intro hx
          exact absurd (List.map_eq_nil_iff.1 (List.append_eq_nil_iff.1 hx).2) hn
        · intro _
          exact ⟨_, rfl, holds_append hm (holds_some src)⟩
    | false =>
      have hc := hg e
      refine ⟨a, by simp [step, addFrom, Spec.step, e, add_refused h hp src.length e hc], ?_⟩
      simpa [Spec.step, e] using h
  | free =>
    exact ⟨_, rfl, rfl, h.2.1, fun _ => rfl, fun hx => absurd rfl hx⟩

private theorem run_ok : ∀ (ops : List Op) {a : Area} {c : Content}, Inv a c → Plain ops c →
    ∃ a', run ops a = some ((Spec.run ops c).1, a') ∧ Inv a' (Spec.run ops c).2 := by
  intro ops
  induction ops with
  | nil => intro a c h _; exact ⟨a, rfl, h⟩
  | cons op ops ih =>
    intro a c h hp
    obtain ⟨a1, e1, h1, p1⟩ := step_ok h op ops hp
    obtain ⟨a2, e2, h2⟩ := ih h1 p1
    refine ⟨a2, ?_, h2⟩
    unfold run
    rw [e1]
    dsimp only
    rw [e2]
    rfl

/-- **C121.** After every history of additions and releases, every answer is the one of the content (the offset of what is added is the
size before, so that nothing overlaps), the size is the one of the content, the address of every offset below it leads to the content, with
every byte as it was added, no other offset has an address, and no block is lost. -/
theorem c121_history_partial (ops : List Op) (hp : Plain ops []) :
    ∃ a, run ops empty = some ((Spec.run ops []).1, a) ∧ a.size = (Spec.run ops []).2.length ∧ a.lost = 0 ∧
      (∀ o, o < (Spec.run ops []).2.length → ∃ m, getPointer a o = some ⟨some m, o⟩ ∧ Holds m (Spec.run ops []).2) ∧
      ∀ o, (Spec.run ops []).2.length ≤ o → getPointer a o = none := by
  obtain ⟨a, e, h1, h2, h3, h4⟩ := run_ok ops (a := empty) (c := []) ⟨rfl, rfl, fun _ => rfl, fun h => absurd rfl h⟩ hp
  refine ⟨a, e, h1, h2, ?_, ?_⟩
  · intro o ho
    obtain ⟨m, hm, hh⟩ := h4 (by intro hx; rw [hx] at ho; simp at ho)
    refine ⟨m, ?_, hh⟩
    unfold getPointer
    rw [if_pos (by omega), hm]
  · intro o ho
    unfold getPointer
    rw [if_neg (by omega)]

private def yes : Heap := ⟨true, fun _ => 170⟩
private def no : Heap := ⟨false, fun _ => 0⟩

/-- **C121 fails when the area cannot grow**: the addition is refused, but the area forgets its block, keeps its size, and gives addresses
that are in no block. -/
theorem c121_refused_fails (a : Area) (n : Nat) (h : Heap) (m : List UInt8) (hm : a.memory = some m) (hs : a.size ≠ 0) (hg : h.gives = false) :
    (add h n a).1 = none ∧ (add h n a).2.lost = a.lost + 1 ∧ ∀ o, o < a.size → getPointer (add h n a).2 o = some ⟨none, o⟩ := by
  unfold add
  rw [if_neg hs]
  simp [realloc, hg, hm, getPointer]

/-- **C121 fails beyond 4 GB**: the size wraps, the block shrinks, and the bytes are written out of it. -/
theorem c121_wrap_fails (a : Area) (src m : List UInt8) (h : Heap) (hm : a.memory = some m) (hl : m.length = a.size) (hs : a.size < 2 ^ 32)
    (h1 : src.length < 2 ^ 32) (h2 : 2 ^ 32 ≤ a.size + src.length) (hg : h.gives = true) : addFrom h src a = none := by
  have hs0 : a.size ≠ 0 := by omega
  unfold addFrom add
  rw [if_neg hs0]
  simp only [realloc, if_pos hg, hm, Option.getD_some]
  unfold put
  rw [if_neg]
  · rfl
  · simp [fresh_length]
    omega

/-- **C121 fails for an initial block without size**: it is lost at the first addition. -/
theorem c121_initial_fails (n : Nat) (h : Heap) : ∃ a, step (.init []) empty = some (some 0, a) ∧ (add h n a).2.lost = 1 := by
  refine ⟨_, rfl, ?_⟩
  unfold add
  simp [initMemory, empty]
  cases malloc h n <;> rfl

/-- Additions with and without a source, a refused one, and a release. -/
example : Plain [.add no 4, .addFrom yes [1, 2, 3], .add yes 2, .addFrom yes [7], .free, .init [5, 6], .addFrom yes [8]] [] ∧
    (run [.add no 4, .addFrom yes [1, 2, 3], .add yes 2, .addFrom yes [7]] empty).map (fun r => (r.1, r.2.memory)) =
      some ([none, some 0, some 3, some 5], some [1, 2, 3, 170, 170, 7]) := by
  refine ⟨?_, rfl⟩
  simp [Plain, Spec.step, yes, no]

end Verif.MemoryArea
