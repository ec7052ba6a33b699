import Verif.Model.Interp
import Verif.Spec.Interp
import Verif.Proof.TextFloat
set_option maxRecDepth 8000
set_option linter.unusedSimpArgs false
set_option linter.unusedVariables false
namespace Verif.Interp
open Verif.FloatNum
open Verif.Spec.FloatNum
open Verif.Spec.Interp

/-! ## The arithmetic, for any format -/

theorem isFloat_of (p K top : Nat) (i : Int) (h : i.natAbs < 2 ^ p) (e : Nat) (he : p + e ≤ top) : IsFloat p top (i * 2 ^ e) := by
  refine ⟨⟨i.natAbs, e, h, natAbs_mul_pow i e⟩, ?_⟩
  rw [natAbs_mul_pow]
  have h1 : i.natAbs * 2 ^ e < 2 ^ p * 2 ^ e := Nat.mul_lt_mul_of_pos_right h (pow_pos' e)
  rw [← Nat.pow_add] at h1
  exact Nat.lt_of_lt_of_le h1 (Nat.pow_le_pow_right (by omega) he)

theorem ofInt_int (f : Fmt) (hf : f.p + f.K ≤ f.top) (i : Int) (h : i.natAbs < 2 ^ f.p) : ofInt f i = .fin (i * 2 ^ f.K) := by
  unfold ofInt
  exact round_exact f _ (isFloat_of f.p f.K f.top i h f.K hf)

theorem signed_nat (a : Int) (e : Nat) :
    (if (decide (a < 0)) = true then -((a.natAbs * 2 ^ e : Nat) : Int) else ((a.natAbs * 2 ^ e : Nat) : Int)) = a * 2 ^ e := by
  by_cases h : a < 0
  · simp only [h, decide_true, if_true]
    have : (a.natAbs : Int) = -a := by omega
    push_cast
    rw [this, Int.neg_mul, Int.neg_neg]
  · simp only [h, decide_false, Bool.false_eq_true, if_false]
    have : (a.natAbs : Int) = a := by omega
    push_cast
    rw [this]

theorem neg_iff (a b : Int) (hb : 0 < b) : (a * b < 0) ↔ a < 0 := by
  constructor
  · intro h
    apply Int.not_le.1
    intro ha
    have := Int.mul_nonneg ha (Int.le_of_lt hb)
    omega
  · intro h
    exact Int.mul_neg_of_neg_of_pos h hb

theorem roundQ_int (f : Fmt) (a : Int) (e : Nat) (ha : a.natAbs < 2 ^ f.p) (he : f.p + e ≤ f.top) :
    roundQ f (decide (a < 0)) (a.natAbs * 2 ^ e) 1 = .fin (a * 2 ^ e) := by
  have h1 : a.natAbs * 2 ^ e < 2 ^ f.p * 2 ^ e := Nat.mul_lt_mul_of_pos_right ha (pow_pos' e)
  rw [← Nat.pow_add] at h1
  rw [roundQ_exact f _ _ _ ha (Nat.lt_of_lt_of_le h1 (Nat.pow_le_pow_right (by omega) he)), signed_nat]

theorem div_int (f : Fmt) (hf : f.p + f.K ≤ f.top) (a : Int) (d k : Nat) (hd : 0 < d) (hk : k ≤ f.K) (ha : a.natAbs < 2 ^ f.p) :
    div f (.fin (a * d * 2 ^ f.K)) (.fin (((d * 2 ^ k : Nat) : Int) * 2 ^ f.K)) = .fin (a * 2 ^ (f.K - k)) := by
  obtain ⟨p, K, top⟩ := f
  simp only at *
  have hpos : 0 < d * 2 ^ k * 2 ^ K := Nat.mul_pos (Nat.mul_pos hd (pow_pos' k)) (pow_pos' K)
  have hy : (((d * 2 ^ k : Nat) : Int) * 2 ^ K) = ((d * 2 ^ k * 2 ^ K : Nat) : Int) := by push_cast; rfl
  rw [hy]
  simp only [div, Int.natAbs_natCast]
  rw [if_neg (by omega)]
  have h1 : decide (((d * 2 ^ k * 2 ^ K : Nat) : Int) < 0) = false := by
    simp only [decide_eq_false_iff_not]; omega
  have h2 : decide (a * (d : Int) * 2 ^ K < 0) = decide (a < 0) := by
    have e : a * (d : Int) * 2 ^ K = a * ((d * 2 ^ K : Nat) : Int) := by push_cast; rw [Int.mul_assoc]
    have hp : (0 : Int) < ((d * 2 ^ K : Nat) : Int) := by
      have := Nat.mul_pos hd (pow_pos' K); omega
    rw [e]
    exact decide_eq_decide.2 (neg_iff a _ hp)
  rw [h1, h2]
  have h3 : (a * (d : Int) * 2 ^ K).natAbs * 2 ^ K = a.natAbs * 2 ^ (K - k) * (d * 2 ^ k * 2 ^ K) := by
    rw [natAbs_mul_pow, Int.natAbs_mul, Int.natAbs_natCast]
    have e : 2 ^ K = 2 ^ (K - k) * 2 ^ k := by rw [← Nat.pow_add]; congr 1; omega
    generalize 2 ^ (K - k) = u at *
    generalize 2 ^ k = w at *
    rw [e]; grind
  have h4 := roundQ_scale ⟨p, K, top⟩ (decide (a < 0) != false) (a.natAbs * 2 ^ (K - k)) 1 (d * 2 ^ k * 2 ^ K) hpos
  rw [Nat.one_mul] at h4
  rw [h3, h4]
  rw [Bool.bne_false]
  exact roundQ_int ⟨p, K, top⟩ a (K - k) ha (by simp only; omega)

theorem mul_int (f : Fmt) (hf : f.p + f.K ≤ f.top) (a : Int) (c k : Nat) (hac : a.natAbs * c < 2 ^ f.p) :
    mul f (.fin (a * 2 ^ (f.K - k))) (.fin ((c : Int) * 2 ^ f.K)) = .fin (a * c * 2 ^ (f.K - k)) := by
  obtain ⟨p, K, top⟩ := f
  simp only at *
  have hy : ((c : Int) * 2 ^ K) = ((c * 2 ^ K : Nat) : Int) := by push_cast; rfl
  rw [hy]
  simp only [mul, Int.natAbs_natCast]
  have h1 : decide (((c * 2 ^ K : Nat) : Int) < 0) = false := by
    simp only [decide_eq_false_iff_not]; omega
  have h2 : decide (a * 2 ^ (K - k) < 0) = decide (a < 0) :=
    decide_eq_decide.2 (neg_iff a _ (Int.pow_pos (by omega)))
  rw [h1, h2, Bool.bne_false, natAbs_mul_pow]
  have h3 : a.natAbs * 2 ^ (K - k) * (c * 2 ^ K) = (a * c).natAbs * 2 ^ (K - k) * 2 ^ K := by
    rw [Int.natAbs_mul, Int.natAbs_natCast]; grind
  have h4 := roundQ_scale ⟨p, K, top⟩ (decide (a < 0)) ((a * c).natAbs * 2 ^ (K - k)) 1 (2 ^ K) (pow_pos' K)
  rw [Nat.one_mul] at h4
  rw [h3, h4]
  have hac' : (a * c).natAbs < 2 ^ p := by rw [Int.natAbs_mul, Int.natAbs_natCast]; exact hac
  by_cases hc : c = 0
  · subst hc
    have := roundQ_exact ⟨p, K, top⟩ (decide (a < 0)) 0 (K - k) (pow_pos' p) (by simp only; rw [Nat.zero_mul]; exact pow_pos' _)
    simp only [Int.natCast_zero, Int.mul_zero, Int.natAbs_zero, Nat.zero_mul, Int.zero_mul, Int.neg_zero, ite_self] at this ⊢
    exact this
  · have h5 : decide (a < 0) = decide (a * c < 0) := (decide_eq_decide.2 (neg_iff a c (by omega))).symm
    rw [h5]
    exact roundQ_int ⟨p, K, top⟩ (a * c) (K - k) hac' (by simp only; omega)

theorem add_int (f : Fmt) (hf : f.p + f.K ≤ f.top) (y b : Int) (k : Nat) (hk : k ≤ f.K) (h : (y * 2 ^ k + b).natAbs < 2 ^ f.p) :
    add f (.fin (y * 2 ^ f.K)) (.fin (b * 2 ^ (f.K - k))) = .fin ((y * 2 ^ k + b) * 2 ^ (f.K - k)) := by
  simp only [add]
  have e : (2 : Int) ^ f.K = 2 ^ k * 2 ^ (f.K - k) := by rw [← Int.pow_add]; congr 1; omega
  have h1 : y * 2 ^ f.K + b * 2 ^ (f.K - k) = (y * 2 ^ k + b) * 2 ^ (f.K - k) := by
    rw [e]; grind
  rw [h1]
  exact round_exact f _ (isFloat_of f.p f.K f.top _ h _ (by omega))

theorem trunc_int (f : Fmt) (lo hi N : Int) (k : Nat) (hk : k ≤ f.K) (h1 : lo ≤ Int.tdiv N (2 ^ k)) (h2 : Int.tdiv N (2 ^ k) ≤ hi) :
    truncInt f lo hi (.fin (N * 2 ^ (f.K - k))) = some (Int.tdiv N (2 ^ k)) := by
  have e : (2 : Int) ^ f.K = 2 ^ k * 2 ^ (f.K - k) := by rw [← Int.pow_add]; congr 1; omega
  have h3 : Int.tdiv (N * 2 ^ (f.K - k)) (2 ^ f.K) = Int.tdiv N (2 ^ k) := by
    rw [e]
    exact Int.mul_tdiv_mul_of_pos_left N (2 ^ k) (Int.pow_pos (by omega))
  simp only [truncInt, h3]
  rw [if_pos ⟨h1, h2⟩]

theorem tdiv_between (N y D : Int) (hD : 0 < D) : (y * D ≤ N → y ≤ Int.tdiv N D) ∧ (N ≤ y * D → Int.tdiv N D ≤ y) := by
  constructor
  · intro h
    have := Int.tdiv_le_tdiv hD h
    rwa [Int.mul_tdiv_cancel _ (by omega)] at this
  · intro h
    have := Int.tdiv_le_tdiv hD h
    rwa [Int.mul_tdiv_cancel _ (by omega)] at this

theorem fmt64 : f64.p + f64.K ≤ f64.top := by decide

/-- The value of one element. -/
theorem value (ty : Ty) (x0 x1 : Nat) (y0 y1 : Int) (t : Nat) (h : x0 < x1) (hd : Dyadic x0 x1 y0 y1) (h0 : x0 ≤ t) (h1 : t ≤ x1)
    (hw : NoWrap ty y0 y1) :
    truncInt f64 ty.min ty.max (add f64 (ofInt f64 y0)
      (mul f64 (div f64 (ofInt f64 (y1 - y0)) (ofInt f64 ((x1 - x0 : Nat) : Int))) (ofInt f64 ((t - x0 : Nat) : Int)))) =
      some (line x0 x1 y0 y1 t) := by
  obtain ⟨d, k, hdk, ⟨a, ha⟩, hb, hdt⟩ := hd
  obtain ⟨l0, g0, l1, g1, _⟩ := hw
  have hp53 : f64.p = 53 := rfl
  have hK : 53 ≤ f64.K := by decide
  have hf := fmt64
  generalize f64 = f at *
  have hd0 : 0 < d := by
    rcases Nat.eq_zero_or_pos d with h' | h'
    · subst h'; simp at hdk; omega
    · exact h'
  have hk0 : k ≤ 53 := by
    apply Nat.le_of_not_lt
    intro hlt
    have : 2 ^ 53 ≤ 2 ^ k := Nat.pow_le_pow_right (by omega) (by omega)
    have : 1 * 2 ^ k ≤ d * 2 ^ k := Nat.mul_le_mul_right _ hd0
    omega
  have hpk : 0 < 2 ^ k := pow_pos' k
  have hsum : y0.natAbs + y1.natAbs < 2 ^ 53 :=
    Nat.lt_of_le_of_lt (by have := Nat.mul_le_mul_left (y0.natAbs + y1.natAbs) hpk; omega) hb
  have hdel : (y1 - y0).natAbs < 2 ^ 53 := by omega
  have hda : (y1 - y0).natAbs = a.natAbs * d := by rw [ha, Int.natAbs_mul, Int.natAbs_natCast]
  have haa : a.natAbs < 2 ^ 53 := by
    have := Nat.mul_le_mul_left a.natAbs hd0
    omega
  have hc : t - x0 ≤ d * 2 ^ k := by omega
  have hac : a.natAbs * (t - x0) < 2 ^ 53 := by
    have h2 : a.natAbs * (t - x0) ≤ a.natAbs * (d * 2 ^ k) := Nat.mul_le_mul_left _ hc
    have h3 : a.natAbs * (d * 2 ^ k) = (y1 - y0).natAbs * 2 ^ k := by rw [hda, Nat.mul_assoc]
    have h4 : (y1 - y0).natAbs * 2 ^ k ≤ (y0.natAbs + y1.natAbs) * 2 ^ k := Nat.mul_le_mul_right _ (by omega)
    omega
  have hPk : (0 : Int) < 2 ^ k := Int.pow_pos (by omega)
  -- the value in units of 2^-k is between the ends
  have hends : (y0 ≤ y1 → y0 * 2 ^ k ≤ y0 * 2 ^ k + a * ((t - x0 : Nat) : Int) ∧ y0 * 2 ^ k + a * ((t - x0 : Nat) : Int) ≤ y1 * 2 ^ k) ∧
      (y1 ≤ y0 → y1 * 2 ^ k ≤ y0 * 2 ^ k + a * ((t - x0 : Nat) : Int) ∧ y0 * 2 ^ k + a * ((t - x0 : Nat) : Int) ≤ y0 * 2 ^ k) := by
    have hcI : ((t - x0 : Nat) : Int) ≤ (d : Int) * 2 ^ k := by
      have : ((d * 2 ^ k : Nat) : Int) = (d : Int) * 2 ^ k := by push_cast; rfl
      omega
    have hc0 : (0 : Int) ≤ ((t - x0 : Nat) : Int) := Int.natCast_nonneg _
    generalize ((t - x0 : Nat) : Int) = c at *
    have hfull : y1 * 2 ^ k - y0 * 2 ^ k = a * ((d : Int) * 2 ^ k) := by rw [← Int.sub_mul, ha, Int.mul_assoc]
    have hd1 : (0 : Int) < d := by omega
    constructor
    · intro hle
      have ha0 : 0 ≤ a := by
        apply Int.not_lt.1
        intro hlt
        have := Int.mul_neg_of_neg_of_pos hlt hd1
        omega
      have h5 := Int.mul_nonneg ha0 hc0
      have h6 := Int.mul_le_mul_of_nonneg_left hcI ha0
      omega
    · intro hle
      have ha0 : a ≤ 0 := by
        apply Int.not_lt.1
        intro hlt
        have := Int.mul_pos hlt hd1
        omega
      have h5 := Int.mul_nonneg (show 0 ≤ -a by omega) hc0
      have h6 := Int.mul_le_mul_of_nonneg_left hcI (show 0 ≤ -a by omega)
      rw [Int.neg_mul] at h5
      rw [Int.neg_mul, Int.neg_mul] at h6
      omega
  have hN : (y0 * 2 ^ k + a * ((t - x0 : Nat) : Int)).natAbs < 2 ^ 53 := by
    have hy : ∀ y : Int, (y * 2 ^ k).natAbs = y.natAbs * 2 ^ k := fun y => natAbs_mul_pow y k
    have h7 := hy y0
    have h8 := hy y1
    rw [Nat.add_mul] at hb
    rcases Int.le_total y0 y1 with h9 | h9
    · have := hends.1 h9; omega
    · have := hends.2 h9; omega
  have hz : ((t - x0 : Nat) : Int).natAbs < 2 ^ 53 := by rw [Int.natAbs_natCast]; omega
  rw [ofInt_int f hf y0 (by rw [hp53]; omega), ofInt_int f hf (y1 - y0) (by rw [hp53]; omega),
    ofInt_int f hf ((x1 - x0 : Nat) : Int) (by rw [hp53, Int.natAbs_natCast]; omega),
    ofInt_int f hf ((t - x0 : Nat) : Int) (by rw [hp53]; exact hz)]
  rw [ha, ← hdk, div_int f hf a d k hd0 (by omega) (by rw [hp53]; exact haa),
    mul_int f hf a (t - x0) k (by rw [hp53]; exact hac),
    add_int f hf y0 (a * ((t - x0 : Nat) : Int)) k (by omega) (by rw [hp53]; exact hN)]
  have hline : line x0 x1 y0 y1 t = Int.tdiv (y0 * 2 ^ k + a * ((t - x0 : Nat) : Int)) (2 ^ k) := by
    unfold line
    have e1 : (x1 : Int) - x0 = (2 : Int) ^ k * d := by
      have : ((d * 2 ^ k : Nat) : Int) = (d : Int) * 2 ^ k := by push_cast; rfl
      rw [Int.mul_comm]
      omega
    have e2 : (t : Int) - x0 = ((t - x0 : Nat) : Int) := by omega
    rw [e1, e2, ha]
    have e3 : y0 * (2 ^ k * (d : Int)) + a * d * ((t - x0 : Nat) : Int) = (y0 * 2 ^ k + a * ((t - x0 : Nat) : Int)) * d := by grind
    rw [e3]
    exact Int.mul_tdiv_mul_of_pos_left _ _ (by omega)
  rw [hline]
  apply trunc_int f _ _ _ k (by omega)
  · rcases Int.le_total y0 y1 with h9 | h9
    · exact Int.le_trans l0 ((tdiv_between _ y0 _ hPk).1 (hends.1 h9).1)
    · exact Int.le_trans l1 ((tdiv_between _ y1 _ hPk).1 (hends.2 h9).1)
  · rcases Int.le_total y0 y1 with h9 | h9
    · exact Int.le_trans ((tdiv_between _ y1 _ hPk).2 (hends.1 h9).2) g1
    · exact Int.le_trans ((tdiv_between _ y0 _ hPk).2 (hends.2 h9).2) g0

theorem diff_eq (ty : Ty) (y0 y1 : Int) (hw : NoWrap ty y0 y1) : diff ty y1 y0 = some (y1 - y0) := by
  obtain ⟨l0, g0, l1, g1, h⟩ := hw
  unfold diff
  by_cases hb : ty.bits < 32
  · rw [if_pos hb]
  · rw [if_neg hb]
    rcases h with h | ⟨h1, h2, h3⟩ | ⟨h1, h2⟩
    · exact absurd h hb
    · rw [if_pos h1]
      simp only [Ty.min, Ty.max, h1, if_true]
      rw [if_pos ⟨h2, h3⟩]
    · rw [h1] at l0 g0 l1 g1 ⊢
      simp only [Bool.false_eq_true, if_false] at l0 g0 l1 g1 ⊢
      rw [Int.emod_eq_of_lt (by omega) (by omega)]

/-! ## The history -/

theorem mono (T : Nat → Nat) (q : Nat) (hT : ∀ n, n < q → T n < T (n + 1)) : ∀ d n, n + d ≤ q → T n + d ≤ T (n + d) := by
  intro d
  induction d with
  | zero => intro n _; simp
  | succ d ih =>
    intro n h
    have h1 := ih n (by omega)
    have h2 := hT (n + d) (by omega)
    rw [show n + (d + 1) = n + d + 1 by omega]
    omega

theorem advance_eq (src : Source) (T : Nat → Nat) (Y : Nat → Int) (t q : Nat) (hs : ∀ n, n ≤ q → src n = some (T n, [Y n]))
    (hT : ∀ n, n < q → T n < T (n + 1)) : ∀ (fuel pos : Nat) (tr : Bool), First T pos t q → t - T pos < fuel →
    advance src t fuel pos (T pos) tr = some (true, q, tr || decide (T pos < t)) := by
  intro fuel
  induction fuel with
  | zero => intro _ _ _ h; omega
  | succ fuel ih =>
    intro pos tr hF hf
    obtain ⟨h1, h2, h3⟩ := hF
    rw [advance]
    by_cases ht : t > T pos
    · rw [if_pos ht]
      have hne : pos ≠ q := by rintro rfl; omega
      have hm := hT pos (by omega)
      rw [hs (pos + 1) (by omega)]
      simp only
      rw [if_neg (by omega), ih (pos + 1) true ⟨by omega, h2, fun l h4 h5 => h3 l (by omega) h5⟩ (by omega)]
      simp [ht]
    · rw [if_neg ht]
      have : pos = q := by
        rcases Nat.lt_or_ge pos q with h | h
        · have := h3 pos (Nat.le_refl _) h; omega
        · omega
      subst this
      simp [ht]

/-- The broker after a change to the segment from the sample `p` to the sample `q`. -/
structure Inv (src : Source) (T : Nat → Nat) (Y : Nat → Int) (t p q : Nat) (s : S) : Prop where
  reset : s.reset = false
  pos : s.pos = q
  ix : s.interpolatedX = t
  x0 : s.x0 = T p
  x1 : s.x1 = T q
  y0 : s.y0 = [Y p]
  y1 : s.y1 = [Y q]
  m : s.m = div f64 (ofInt f64 (Y q - Y p)) (ofInt f64 ((T q - T p : Nat) : Int))

theorem sub64_eq (a b : Nat) (h : b ≤ a) (ha : a < 2 ^ 64) : sub64 a b = a - b := by
  unfold sub64
  rw [show a + 2 ^ 64 - b = (a - b) + 2 ^ 64 by omega, Nat.add_mod_right, Nat.mod_eq_of_lt (by omega)]

theorem interpolate_eq (ty : Ty) (T : Nat → Nat) (Y : Nat → Int) (t p q : Nat) (m : Flt)
    (hm : m = div f64 (ofInt f64 (Y q - Y p)) (ofInt f64 ((T q - T p : Nat) : Int))) (h : T p < T q) (hd : Dyadic (T p) (T q) (Y p) (Y q))
    (h0 : T p ≤ t) (h1 : t ≤ T q) (h64 : T q < 2 ^ 64) (hw : NoWrap ty (Y p) (Y q)) :
    interpolate ty (sub64 t (T p)) m [Y p] = some [line (T p) (T q) (Y p) (Y q) t] := by
  rw [sub64_eq t (T p) h0 (by omega), interpolate, hm, value ty (T p) (T q) (Y p) (Y q) t h hd h0 h1 hw]
  rfl

/-- A call that changes the segment. -/
theorem execute_move (ty : Ty) (src : Source) (T : Nat → Nat) (Y : Nat → Int) (period fuel t p q : Nat) (s : S)
    (hr : s.reset = false) (hpos : s.pos = p) (hix : s.interpolatedX + period = t) (hx1 : s.x1 = T p) (hy1 : s.y1 = [Y p])
    (hs : ∀ n, n ≤ q → src n = some (T n, [Y n])) (hT : ∀ n, n < q → T n < T (n + 1)) (h64 : T q < 2 ^ 64)
    (hF : First T p t q) (ht : T p < t) (hf : t - T p < fuel) (hd : Dyadic (T p) (T q) (Y p) (Y q)) (hw : NoWrap ty (Y p) (Y q)) :
    ∃ s', execute ty src period fuel s = some (true, some [line (T p) (T q) (Y p) (Y q) t], s') ∧ Inv src T Y t p q s' := by
  have hle := hF.1
  have htq := hF.2.1
  have hadv := advance_eq src T Y t q hs hT fuel p false hF hf
  simp only [ht, decide_true, Bool.or_true] at hadv
  have hmod : (s.interpolatedX + period) % 2 ^ 64 = t := by rw [hix]; exact Nat.mod_eq_of_lt (by omega)
  refine ⟨⟨T p, T q, t, [Y p], [Y q], div f64 (ofInt f64 (Y q - Y p)) (ofInt f64 ((T q - T p : Nat) : Int)), s.reset, q⟩, ?_, ⟨hr, rfl, rfl, rfl, rfl, rfl, rfl, rfl⟩⟩
  unfold execute
  simp only [hpos, hs p hle, Option.bind_some, hr, Bool.false_eq_true, if_false, hmod, hadv, if_true, hs q (Nat.le_refl q)]
  unfold changeSegments
  simp only [hx1, hy1]
  rw [if_neg (show ¬ T q = T p by omega), sub64_eq (T q) (T p) (by omega) h64]
  simp only [slopes, diff_eq ty (Y p) (Y q) hw, Option.bind_some, Option.map_some]
  rw [interpolate_eq ty T Y t p q _ rfl (by omega) hd (by omega) htq h64 hw]
  rfl

/-- A call in the same segment. -/
theorem execute_stay (ty : Ty) (src : Source) (T : Nat → Nat) (Y : Nat → Int) (period fuel t t' p q : Nat) (s : S)
    (hi : Inv src T Y t p q s) (ht : t' = t + period) (hpt : T p ≤ t) (htq : t' ≤ T q)
    (hs : ∀ n, n ≤ q → src n = some (T n, [Y n])) (hT : ∀ n, n < q → T n < T (n + 1)) (h64 : T q < 2 ^ 64)
    (hpq : T p < T q) (hf : 0 < fuel) (hd : Dyadic (T p) (T q) (Y p) (Y q)) (hw : NoWrap ty (Y p) (Y q)) :
    ∃ s', execute ty src period fuel s = some (true, some [line (T p) (T q) (Y p) (Y q) t'], s') ∧ Inv src T Y t' p q s' := by
  have hadv := advance_eq src T Y t' q hs hT fuel q false ⟨Nat.le_refl _, htq, fun l h1 h2 => by omega⟩ (by omega)
  have hn : ¬ T q < t' := by omega
  simp only [hn, decide_false, Bool.or_false] at hadv
  have hmod : (s.interpolatedX + period) % 2 ^ 64 = t' := by rw [hi.ix, ← ht]; exact Nat.mod_eq_of_lt (by omega)
  refine ⟨{ s with interpolatedX := t', pos := q }, ?_, ⟨hi.reset, rfl, rfl, hi.x0, hi.x1, hi.y0, hi.y1, hi.m⟩⟩
  unfold execute
  simp only [hi.pos, hs q (Nat.le_refl q), Option.bind_some, hi.reset, Bool.false_eq_true, if_false, hmod, hadv, if_true]
  simp only [hi.x0, hi.y0]
  rw [interpolate_eq ty T Y t' p q s.m hi.m hpq hd (by omega) htq h64 hw]
  rfl

theorem segment_facts (T : Nat → Nat) (i period k p q : Nat) (h : Segment T i period k p q) (hp : 0 < period) :
    0 < k ∧ p < q ∧ T i + k * period ≤ T q ∧ T p < T i + k * period := by
  induction h with
  | first hF =>
    obtain ⟨h1, h2, h3⟩ := hF
    refine ⟨by omega, ?_, by omega, by omega⟩
    rcases Nat.lt_or_ge i _ with h | h
    · exact h
    · have : i = _ := Nat.le_antisymm h1 h
      rw [← this] at h2; omega
  | stay h1 h2 ih =>
    refine ⟨by omega, ih.2.1, h2, ?_⟩
    rw [Nat.add_mul]; omega
  | @move k p q q' h1 h2 h3 ih =>
    refine ⟨by omega, ?_, h3.2.1, h2⟩
    rcases Nat.lt_or_ge q q' with h | h
    · exact h
    · have h4 := h3.1
      have h5 := h3.2.1
      have : q = q' := by omega
      subst this; omega

theorem history (ty : Ty) (src : Source) (T : Nat → Nat) (Y : Nat → Int) (period fuel i : Nat) (s : S) (hp : 0 < period)
    (hf : period < fuel) (hr : s.reset = true) (hpos : s.pos = i) (hix : s.interpolatedX = T i) (hx1 : s.x1 = T i) (hy1 : s.y1 = [Y i])
    (k p q : Nat) (hseg : Segment T i period k p q) : (∀ n, n ≤ q → src n = some (T n, [Y n])) → (∀ n, n < q → T n < T (n + 1)) →
    T q < 2 ^ 64 → (∀ k' p' q', k' ≤ k → Segment T i period k' p' q' → Dyadic (T p') (T q') (Y p') (Y q') ∧ NoWrap ty (Y p') (Y q')) →
    ∃ s', executes ty src period fuel k s = some (true, some [line (T p) (T q) (Y p) (Y q) (T i + k * period)], s') ∧
      Inv src T Y (T i + k * period) p q s' := by
  induction hseg with
  | @first q hF =>
    intro hs hT h64 hg
    obtain ⟨g1, g2⟩ := hg 1 i q (Nat.le_refl _) (.first hF)
    have he : executes ty src period fuel 0 s = some (true, some [Y i], { s with reset := false }) := by
      simp only [executes, execute, hpos, hs i hF.1, Option.bind_some, hr, if_true]
    rw [executes, he, Nat.one_mul]
    simp only [Option.bind_some]
    exact execute_move ty src T Y period fuel (T i + period) i q { s with reset := false } rfl hpos (by simp [hix]) hx1 hy1 hs hT h64
      hF (by omega) (by omega) g1 g2
  | @stay k p q hseg h2 ih =>
    intro hs hT h64 hg
    obtain ⟨s', e, hi⟩ := ih hs hT h64 (fun k' p' q' hk hs' => hg k' p' q' (by omega) hs')
    obtain ⟨f1, f2, f3, f4⟩ := segment_facts T i period _ _ _ hseg hp
    obtain ⟨g1, g2⟩ := hg (k + 1) p q (Nat.le_refl _) (.stay hseg h2)
    rw [executes, e]
    simp only [Option.bind_some]
    exact execute_stay ty src T Y period fuel (T i + k * period) (T i + (k + 1) * period) p q s' hi (by rw [Nat.add_mul]; omega)
      (by omega) h2 hs hT h64 (by omega) (by omega) g1 g2
  | @move k p q q' hseg h2 hF ih =>
    intro hs hT h64 hg
    have hqq := hF.1
    have hmq := mono T q' hT (q' - q) q (by omega)
    rw [show q + (q' - q) = q' by omega] at hmq
    obtain ⟨s', e, hi⟩ := ih (fun n hn => hs n (by omega)) (fun n hn => hT n (by omega)) (by omega)
      (fun k' p' q' hk hs' => hg k' p' q' (by omega) hs')
    obtain ⟨f1, f2, f3, f4⟩ := segment_facts T i period _ _ _ hseg hp
    obtain ⟨g1, g2⟩ := hg (k + 1) q q' (Nat.le_refl _) (.move hseg h2 hF)
    rw [executes, e]
    simp only [Option.bind_some]
    have hkp : (k + 1) * period = k * period + period := by rw [Nat.add_mul]; omega
    exact execute_move ty src T Y period fuel (T i + (k + 1) * period) q q' s' hi.reset hi.pos (by rw [hi.ix]; omega)
      hi.x1 hi.y1 hs hT h64 hF h2 (by omega) g1 g2

end Verif.Interp
