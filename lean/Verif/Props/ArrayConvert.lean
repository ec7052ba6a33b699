import Verif.Proof.ArrayConvert
/-!
# C79: conversion of vectors and matrices

Property: `TypeConvert` converts arrays element by element: it is refused, and nothing changes, when the destination is constant or the
numbers of elements are not the same; otherwise every element of the destination is the converted element of the source at the same place,
nothing else changes, and the answer tells whether every element could be converted.
-/
namespace Verif.Props.ArrayConvert
open Verif.ArrayConvert Verif.Spec.ArrayConvert

/-- **C79**: a constant destination, or other numbers of elements: refused, and nothing changes. -/
theorem c79_refused (e : Elem S) (dst src : Any) (m : Mem) (hd : dst.dims ≤ 3) (hs : src.dims ≤ 3) (h : dst.constant = true ∨ outline dst ≠ outline src) :
    typeConvert e dst src m = (false, m) := by
  unfold typeConvert
  by_cases hc : dst.constant = true
  · rw [if_pos hc]
  · rw [if_neg hc, if_neg]
    rw [agree_iff dst src hd hs]
    rcases h with h | h
    · exact absurd h hc
    · exact h

/-- **C79**: one element. -/
theorem c79_scalar (e : Elem S) (hk : Keeps e) (dst src : Any) (m : Mem) (hd : dst.dims ≤ 3) (hs : src.dims ≤ 3) (hc : dst.constant = false)
    (h0 : outline dst = []) (h1 : outline src = []) (ha : Apart e (width dst) [(dst.addr, src.addr)] m) :
    Elementwise e (width dst) [(dst.addr, src.addr)] m (typeConvert e dst src m) := by
  have hsh : src.shape = 0 := by
    have h3 : src.dims = 0 ∨ src.dims = 1 ∨ src.dims = 2 ∨ src.dims = 3 := by omega
    cases sc : src.char <;> rcases h3 with s | s | s | s <;> simp [outline, Any.shape, sc, s] at h1 ⊢
  have : typeConvert e dst src m = foldPlaces e (width dst) [(dst.addr, src.addr)] (true, m) := by
    unfold typeConvert
    rw [if_neg (by simp [hc]), if_pos ((agree_iff dst src hd hs).2 (by rw [h0, h1])), if_pos hsh]
    rfl
  rw [this]
  exact foldPlaces_spec e hk _ _ m ha

/-- **C79**: vectors of `n` numbers, or of `n` texts (in one block, or pointed to), of less than 2^32 bytes. -/
theorem c79_vector (e : Elem S) (hk : Keeps e) (dst src : Any) (m : Mem) (hd : dst.dims ≤ 3) (hs : src.dims ≤ 3) (hc : dst.constant = false) (n : Nat)
    (h0 : outline dst = [n]) (h1 : outline src = [n]) (hd1 : dst.char = true → dst.size = 1) (hs1 : src.char = true → src.size = 1)
    (hbd : n * width dst < 2 ^ 32) (hbs : n * width src < 2 ^ 32) (ha : Apart e (width dst) (vectorPlaces dst src n) m) :
    Elementwise e (width dst) (vectorPlaces dst src n) m (typeConvert e dst src m) := by
  have h3 : src.dims = 0 ∨ src.dims = 1 ∨ src.dims = 2 ∨ src.dims = 3 := by omega
  have hsh : src.shape = 1 := by
    cases sc : src.char <;> rcases h3 with s | s | s | s <;> simp [outline, Any.shape, sc, s] at h1 ⊢
  have hn : (if src.char then src.n1 else src.n0) = n := by
    cases sc : src.char <;> rcases h3 with s | s | s | s <;> simp [outline, Any.shape, sc, s] at h1 ⊢ <;> exact h1
  have : typeConvert e dst src m = convertVector e dst src m := by
    unfold typeConvert
    rw [if_neg (by simp [hc]), if_pos ((agree_iff dst src hd hs).2 (by rw [h0, h1])), if_neg (by omega), if_pos hsh]
  rw [this, convertVector_places e dst src m n hn (fun i hi => element_place dst n i hi hbd hd1) (fun i hi => element_place src n i hi hbs hs1)]
  exact foldPlaces_spec e hk _ _ m ha

/-- **C79**: matrices of numbers of less than 2^32 bytes, each in one block or with rows that are pointed to. -/
theorem c79_matrix_partial (e : Elem S) (hk : Keeps e) (dst src : Any) (m : Mem) (hc : dst.constant = false) (hcd : dst.char = false) (hcs : src.char = false)
    (hd : dst.dims = 2) (hs : src.dims = 2) (h0 : src.n0 = dst.n0) (h1 : src.n1 = dst.n1)
    (hbd : dst.n1 * dst.n0 * dst.size < 2 ^ 32) (hbs : dst.n1 * dst.n0 * src.size < 2 ^ 32) (ha : Apart e dst.size (matrixPlaces dst src) m) :
    Elementwise e dst.size (matrixPlaces dst src) m (typeConvert e dst src m) := by
  have hw : width dst = dst.size := by simp [width, hcd]
  have : typeConvert e dst src m = convertMatrix e dst src m := by
    unfold typeConvert
    rw [if_neg (by simp [hc]), if_pos ((agree_iff dst src (by omega) (by omega)).2 (by simp [outline, hcd, hcs, hd, hs, h0, h1])),
      if_neg (by simp [Any.shape, hcs, hs]), if_neg (by simp [Any.shape, hcs, hs]), if_pos (by simp [Any.shape, hcs, hs])]
  rw [this, convertMatrix_places e dst src m hcd hcs h0 hbd hbs, hw]
  exact foldPlaces_spec e hk _ _ m ha

/-- **C79 fails**: arrays of three dimensions: the answer is that all is well, and nothing is converted. -/
theorem c79_three_fails (e : Elem S) (dst src : Any) (m : Mem) (hc : dst.constant = false) (hcd : dst.char = false) (hcs : src.char = false)
    (hd : dst.dims = 3) (hs : src.dims = 3) (ho : outline dst = outline src) : typeConvert e dst src m = (true, m) := by
  unfold typeConvert
  rw [if_neg (by simp [hc]), if_pos ((agree_iff dst src (by omega) (by omega)).2 ho),
    if_neg (by simp [Any.shape, hcs, hs]), if_neg (by simp [Any.shape, hcs, hs]), if_neg (by simp [Any.shape, hcs, hs])]

private theorem large_fold (e : Elem S) (hk : Keeps e) (a : Nat) (x : Nat) (hx : a + 2 ^ 32 ≤ x) (g : Nat → Nat) : ∀ (l : List Nat) (st : Bool × Mem),
    (l.foldl (fun st i => convertOne e (a + u32 (i * 8)) (g i) 8 st) st).2 x = st.2 x
  | [], _ => rfl
  | i :: l, st => by
    rw [List.foldl_cons, large_fold e hk a x hx g l]
    simp only [convertOne]
    apply blit_outside
    rw [hk, show (bytes st.2 (a + u32 (i * 8)) 8).length = 8 by simp [bytes]]
    unfold u32
    omega

/-- **C79 fails**: in a vector of 2^29 + 1 numbers of 8 bytes the last one is never written (the first one is, again). -/
theorem c79_large_fails (e : Elem S) (hk : Keeps e) (dst src : Any) (m : Mem) (hcd : dst.char = false) (hcs : src.char = false)
    (hd : dst.dims = 1) (hs : src.dims = 1) (h0 : dst.n0 = 2 ^ 29 + 1) (h1 : src.n0 = 2 ^ 29 + 1) (hz : dst.size = 8) :
    chunk (typeConvert e dst src m).2 (vectorPlace dst (2 ^ 29)) 8 = chunk m (vectorPlace dst (2 ^ 29)) 8 := by
  have hp : vectorPlace dst (2 ^ 29) = dst.addr + 2 ^ 32 := by simp [vectorPlace, hcd, hz]
  rw [hp]
  apply chunk_congr
  intro x hx _
  unfold typeConvert
  by_cases hc : dst.constant = true
  · rw [if_pos hc]
  · rw [if_neg hc, if_pos ((agree_iff dst src (by omega) (by omega)).2 (by simp [outline, hcd, hcs, hd, hs, h0, h1])),
      if_neg (by simp [Any.shape, hcs, hs]), if_pos (by simp [Any.shape, hcs, hs])]
    unfold convertVector
    have := large_fold e hk dst.addr x hx (fun i => src.element i) (List.range src.n0) (true, m)
    simpa [Any.element, hcd, hcs, Any.width, hz] using this

/-- Two elements of two bytes, at 0 and 10, each copied with its bytes exchanged. -/
private def swap : Elem (List UInt8) := ⟨fun m a => chunk m a 2, fun s _ => (true, [s.getD 1 0, s.getD 0 0])⟩

private def small (addr : Nat) : Any := ⟨false, false, 1, 2, 1, 1, 2, true, addr, fun _ => 0⟩

private def start : Mem := fun x => if x < 10 then 0 else UInt8.ofNat x

example : (typeConvert swap (small 0) (small 10) start).1 = true ∧
    chunk (typeConvert swap (small 0) (small 10) start).2 0 6 = [11, 10, 13, 12, 0, 0] := by decide

example : Apart swap (width (small 0)) (vectorPlaces (small 0) (small 10) 2) start := by
  refine ⟨by simp [vectorPlaces, vectorPlace, small, width, List.range_succ], fun p hp m' h => ?_⟩
  simp [vectorPlaces, vectorPlace, small, width, List.range_succ] at hp
  have hh : ∀ x, 4 ≤ x → m' x = start x := fun x hx => h x fun q hq => by
    simp [vectorPlaces, vectorPlace, small, width, List.range_succ] at hq ⊢
    rcases hq with rfl | rfl <;> simp <;> omega
  rcases hp with rfl | rfl <;> simp [swap, chunk, List.range_succ, hh]

end Verif.Props.ArrayConvert
