import Verif.Proof.Interp
/-!
# C73: interpolation of the samples of a data source
-/
set_option linter.unusedVariables false
set_option maxRecDepth 8000
set_option exponentiation.threshold 3000
namespace Verif.Interp
open Verif.FloatNum (Flt)
open Verif.Spec.Interp

/-- **C73 (partial).** After a `Reset` at the sample `i`, the first `Execute` gives that sample, and the `k`-th one after
it gives the value at `T i + k * period` of the line between the samples `p` and `q` of the segment, for signals of one
element whose slopes are exact (`Dyadic`) and whose differences do not wrap.  Missing: the elements of floating point
type, and a bound of the error for the other slopes. -/
theorem c73_history_partial (ty : Ty) (src : Source) (T : Nat → Nat) (Y : Nat → Int) (period fuel i : Nat) (s0 s : S) (hp : 0 < period)
    (hf : period < fuel) (hpos : s0.pos = i) (hsi : src i = some (T i, [Y i])) (hreset : reset ty src s0 = some s) :
    (executes ty src period fuel 0 s).map (fun r => (r.1, r.2.1)) = some (true, some [Y i]) ∧
    ∀ k p q, Segment T i period k p q → (∀ n, n ≤ q → src n = some (T n, [Y n])) → (∀ n, n < q → T n < T (n + 1)) →
      T q < 2 ^ 64 →
      (∀ k' p' q', k' ≤ k → Segment T i period k' p' q' → Dyadic (T p') (T q') (Y p') (Y q') ∧ NoWrap ty (Y p') (Y q')) →
      (executes ty src period fuel k s).map (fun r => (r.1, r.2.1)) =
        some (true, some [line (T p) (T q) (Y p) (Y q) (T i + k * period)]) := by
  have hs : s.reset = true ∧ s.pos = i ∧ s.interpolatedX = T i ∧ s.x1 = T i ∧ s.y1 = [Y i] := by
    unfold reset at hreset
    simp only [hpos, hsi, Option.bind_some, changeSegments, Option.map_map] at hreset
    cases hm : slopes ty (if T i = s0.x1 then 1 else sub64 (T i) s0.x1) s0.y1 [Y i] s0.m with
    | none => rw [hm] at hreset; simp at hreset
    | some m =>
      rw [hm] at hreset
      simp only [Option.map_some, Function.comp, Option.some.injEq] at hreset
      subst hreset
      exact ⟨rfl, rfl, rfl, rfl, rfl⟩
  obtain ⟨h1, h2, h3, h4, h5⟩ := hs
  refine ⟨?_, ?_⟩
  · simp only [executes, execute, h2, hsi, Option.bind_some, h1, if_true, Option.map_some]
  · intro k p q hseg hs hT h64 hg
    obtain ⟨s', e, _⟩ := history ty src T Y period fuel i s hp hf h1 h2 h3 h4 h5 k p q hseg hs hT h64 hg
    rw [e]; rfl

/-- **C73.** When no two samples are closer than the period, the two samples are the ones on both sides of the point. -/
theorem c73_adjacent (T : Nat → Nat) (i period k p q : Nat) (hp : 0 < period) (h : Segment T i period k p q)
    (hT : ∀ n, n < q → T n + period ≤ T (n + 1)) : q = p + 1 ∧ T p < T i + k * period ∧ T i + k * period ≤ T q := by
  obtain ⟨f1, f2, f3, f4⟩ := segment_facts T i period k p q h hp
  refine ⟨?_, f4, f3⟩
  have key : ∀ p q t, p < q → First T p t q → t ≤ T p + period → (∀ n, n < q → T n + period ≤ T (n + 1)) → q = p + 1 := by
    intro p q t hpq hF ht hT
    apply Nat.le_antisymm _ hpq
    apply Nat.le_of_not_lt
    intro hlt
    have h1 := hF.2.2 (p + 1) (by omega) hlt
    have h2 := hT p (by omega)
    omega
  induction h with
  | first hF => exact key i _ _ f2 hF (Nat.le_refl _) hT
  | @stay k p q h1 h2 ih =>
    obtain ⟨e1, e2, e3, e4⟩ := segment_facts T i period k p q h1 hp
    exact ih hT e1 e2 e3 e4
  | @move k p q q' h1 h2 h3 ih =>
    obtain ⟨e1, e2, e3, e4⟩ := segment_facts T i period k p q h1 hp
    exact key q q' _ f2 h3 (by rw [Nat.add_mul]; omega) hT

private theorem advance_stop (src : Source) (t : Nat) (T : Nat → Nat) (W : Nat → List Int) (end' : Option (Nat × List Int)) (j : Nat) :
    ∀ (fuel pos : Nat) (trigger : Bool), j < fuel → (∀ i, i ≤ j → src (pos + i) = some (T i, W i) ∧ T i < t) →
      (∀ i, i < j → T i ≠ T (i + 1)) → src (pos + j + 1) = end' → (end' = none ∨ ∃ w, end' = some (T j, w)) →
      advance src t fuel pos (T 0) trigger = some (false, if end'.isSome then pos + j + 1 else pos + j, true) := by
  induction j generalizing T W with
  | zero =>
    intro fuel pos trigger hf h1 _ hn he
    obtain ⟨fuel, rfl⟩ : ∃ n, fuel = n + 1 := ⟨fuel - 1, by omega⟩
    rw [advance, if_pos (h1 0 (by omega)).2]
    rw [show pos + 0 + 1 = pos + 1 from rfl] at hn
    rw [hn]
    rcases he with rfl | ⟨w, rfl⟩ <;> simp
  | succ j ih =>
    intro fuel pos trigger hf h1 h2 hn he
    obtain ⟨fuel, rfl⟩ : ∃ n, fuel = n + 1 := ⟨fuel - 1, by omega⟩
    rw [advance, if_pos (h1 0 (by omega)).2, (h1 1 (by omega)).1]
    simp only
    rw [if_neg (h2 0 (by omega))]
    have := ih (fun i => T (i + 1)) (fun i => W (i + 1)) fuel (pos + 1) true (by omega)
      (fun i hi => by
        have := h1 (i + 1) (by omega)
        rwa [show pos + (i + 1) = pos + 1 + i by omega] at this)
      (fun i hi => h2 (i + 1) (by omega)) (by rw [← hn]; congr 1; omega) he
    rw [show pos + (j + 1) = pos + 1 + j by omega]
    exact this

/-- **C73.** When the data source fails, or its x-axis does not move, before the point is reached, after any number `j` of
samples, the answer is `false` and nothing is written; the point has advanced all the same, and no sample is read twice:
the next call goes on from the last one that was read. -/
theorem c73_stopped (ty : Ty) (src : Source) (period fuel : Nat) (s : S) (T : Nat → Nat) (W : Nat → List Int) (j : Nat)
    (hr : s.reset = false) (h64 : s.interpolatedX + period < 2 ^ 64) (hf : j < fuel)
    (hs : ∀ i, i ≤ j → src (s.pos + i) = some (T i, W i) ∧ T i < s.interpolatedX + period)
    (hm : ∀ i, i < j → T i ≠ T (i + 1)) (next : Option (Nat × List Int)) (hn : src (s.pos + j + 1) = next)
    (he : next = none ∨ ∃ w, next = some (T j, w)) :
    execute ty src period fuel s = some (false, none,
      { s with interpolatedX := s.interpolatedX + period, pos := if next.isSome then s.pos + j + 1 else s.pos + j }) := by
  unfold execute
  have h0 := (hs 0 (by omega)).1
  rw [Nat.add_zero] at h0
  simp only [h0, Option.bind_some, hr, Bool.false_eq_true, if_false, Nat.mod_eq_of_lt h64]
  rw [advance_stop src _ T W next j fuel s.pos false hf hs hm hn he]
  simp

private def fresh (n : Nat) : S := ⟨0, 0, 0, List.replicate n 0, List.replicate n 0, .fin 0, false, 0⟩
private def run (ty : Ty) (l : List (Nat × List Int)) (n period k : Nat) : Option (Bool × Option (List Int)) :=
  ((reset ty (fun i => l[i]?) (fresh n)).bind fun s => executes ty (fun i => l[i]?) period 100 k s).map fun r => (r.1, r.2.1)

/-- **C73 refuted** for signals of more than one element: all of them have the slope of the last one. -/
theorem c73_vector_fails : run ⟨true, 32⟩ [(0, [0, 0]), (10, [0, 10])] 2 5 1 = some (true, some [5, 5]) := by decide +kernel

/-- **C73 refuted** for unsigned integers of 32 bits that decrease: from 10 to 8 the value in the middle is not 9. -/
theorem c73_unsigned_fails : run ⟨false, 32⟩ [(0, [10]), (10, [8])] 1 5 1 = some (true, some [2147483657]) := by decide +kernel

/-- **C73 refuted** by rounding: at the second sample itself the value is not that of the sample. -/
theorem c73_rounding_fails : run ⟨true, 32⟩ [(0, [0]), (49, [1])] 1 49 1 = some (true, some [0]) := by decide +kernel

/-- **C73 refuted** when the samples are closer than the period: from 0 at 0, 0 at 2 and 8 at 4 the value at 3 is not 4. -/
theorem c73_skipped_fails : run ⟨true, 32⟩ [(0, [0]), (2, [0]), (4, [8])] 1 3 1 = some (true, some [6]) := by decide +kernel

/-- The hypotheses are met: samples every 8 units and a value every 3. -/
example : Segment (fun n => 8 * n) 0 3 1 0 1 ∧ Segment (fun n => 8 * n) 0 3 3 1 2 := by
  have h1 : Segment (fun n => 8 * n) 0 3 1 0 1 := .first ⟨by omega, by simp only; omega, fun l _ h => by simp only; omega⟩
  have h2 : Segment (fun n => 8 * n) 0 3 2 0 1 := .stay h1 (by omega)
  exact ⟨h1, .move h2 (by omega) ⟨by omega, by simp only; omega, fun l _ h => by simp only; omega⟩⟩
example : Dyadic 0 8 0 20 ∧ Dyadic 8 16 20 (-7) ∧ NoWrap ⟨true, 32⟩ 0 20 ∧ NoWrap ⟨true, 32⟩ 20 (-7) :=
  ⟨⟨1, 3, by decide, ⟨20, by decide⟩, by decide, by decide⟩, ⟨1, 3, by decide, ⟨-27, by decide⟩, by decide, by decide⟩,
    by unfold NoWrap; decide, by unfold NoWrap; decide⟩
example : run ⟨true, 32⟩ [(0, [0]), (8, [20]), (16, [-7])] 1 3 3 = some (true, some [16]) ∧ line 8 16 20 (-7) 9 = 16 := by decide +kernel

end Verif.Interp
