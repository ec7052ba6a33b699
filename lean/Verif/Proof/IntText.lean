import Verif.Spec.IntText

namespace Verif.IntText
open Verif.Spec.IntText

/-- Facts about the limits of a C++ type used by the conversion loops. -/
structure TypeFacts (t : IType) : Prop where
  maxmax_eq : t.maxmax = maxVal t
  big : 127 ≤ t.maxmax
  last : t.maxmax % 10 ≤ 8
  cast_id : ∀ x, minVal t ≤ x → x ≤ maxVal t → t.cast x = x
  min_eq : t.signed = true → minVal t = - t.maxmax - 1
  min_le : minVal t ≤ 0

theorem typeFacts (t : IType) (h : IsCxxType t) : TypeFacts t := by
  obtain ⟨w, s⟩ := t
  rcases h with h | h | h | h <;> simp only at h <;> subst h <;> cases s <;>
    refine ⟨by decide, by decide, by decide, ?_, by decide, by decide⟩ <;>
    intro x h1 h2 <;> simp [minVal, maxVal, IType.cast, Int.bmod_def] at * <;> omega

theorem newDigit_48 (c : UInt8) : (0 ≤ newDigitOf c 48 ∧ newDigitOf c 48 ≤ 9 ↔ IsDigit c) ∧
    (IsDigit c → newDigitOf c 48 = (c.toNat : Int) - 48) := by
  have := c.toNat_lt
  unfold newDigitOf IsDigit
  simp only [Int.bmod_def]
  constructor
  · constructor <;> intro h <;> omega
  · intro h; omega

theorem digitsValue_ge (acc : Int) (cs : List UInt8) (h : ∀ c ∈ cs, IsDigit c) (h0 : 0 ≤ acc) :
    acc ≤ digitsValue acc cs := by
  induction cs generalizing acc with
  | nil => simp [digitsValue]
  | cons c cs ih =>
    have hc := h c (by simp)
    have := ih (10 * acc + ((c.toNat : Int) - 48)) (fun c hc => h c (by simp [hc]))
      (by unfold IsDigit at hc; omega)
    simp only [digitsValue, List.foldl_cons] at *
    unfold IsDigit at hc; omega

/-- The decimal loop against the mathematical value.  `r = number + isMin` is the value read so far,
`L = 10 * max + maxLastDigit` the largest accepted one. -/
theorem decLoop_spec (t : IType) (ft : TypeFacts t) (neg : Bool) (last : Int)
    (hlast : last = t.maxmax % 10 + (if neg then 1 else 0)) (cs : List UInt8) (fuel : Nat)
    (hf : cs.length ≤ fuel) (s : DecState) (hret : s.ret = true)
    (h0 : 0 ≤ s.number) (h1 : s.number ≤ t.maxmax)
    (hm : s.isMin = true → s.number = t.maxmax ∧ neg = true) :
    let r := s.number + (if s.isMin then 1 else 0)
    let s' := decLoop t neg (t.maxmax / 10) last fuel cs s
    (s'.ret = true ↔ (∀ c ∈ cs, IsDigit c) ∧ digitsValue r cs ≤ t.maxmax + (if neg then 1 else 0)) ∧
    (s'.ret = true → 0 ≤ s'.number ∧ s'.number ≤ t.maxmax ∧
      s'.number + (if s'.isMin then 1 else 0) = digitsValue r cs ∧ (s'.isMin = true → neg = true)) := by
  have hbig := ft.big
  have hl8 := ft.last
  have hid : ∀ x, 0 ≤ x → x ≤ t.maxmax → t.cast x = x := fun x a b =>
    ft.cast_id x (Int.le_trans ft.min_le a) (by rw [← ft.maxmax_eq]; exact b)
  induction cs generalizing fuel s with
  | nil =>
    cases fuel <;> simp only [decLoop, digitsValue, List.foldl_nil, hret, true_iff] <;>
      refine ⟨⟨by simp, ?_⟩, fun _ => ⟨h0, h1, rfl, fun h => (hm h).2⟩⟩ <;>
      (cases hmin : s.isMin <;> simp [hmin] at hm ⊢ <;> simp_all <;> split <;> omega)
  | cons c cs ih =>
    obtain ⟨fuel, rfl⟩ : ∃ k, fuel = k + 1 := ⟨fuel - 1, by simp at hf; omega⟩
    have hf' : cs.length ≤ fuel := by simp at hf; omega
    simp only [decLoop]
    by_cases hd : 0 ≤ newDigitOf c 48 ∧ newDigitOf c 48 ≤ 9
    case neg =>
      rw [if_neg hd]
      have hnd : ¬ IsDigit c := fun h => hd ((newDigit_48 c).1.mpr h)
      simp [hnd]
    rw [if_pos hd]
    have hdig : IsDigit c := (newDigit_48 c).1.mp hd
    have hval := (newDigit_48 c).2 hdig
    have hstep : ∀ r, digitsValue r (c :: cs) = digitsValue (10 * r + newDigitOf c 48) cs := by
      intro r; rw [hval]; rfl
    have hrest : (∀ c' ∈ c :: cs, IsDigit c') ↔ (∀ c' ∈ cs, IsDigit c') := by simp [hdig]
    simp only [hstep, hrest]
    generalize hnv : newDigitOf c 48 = nd at *
    by_cases hgt : s.number > t.maxmax / 10
    · rw [if_pos hgt]
      simp only [Bool.false_eq_true, false_iff, false_implies, and_true]
      rintro ⟨hall, hle⟩
      have hge := digitsValue_ge (10 * (s.number + if s.isMin = true then 1 else 0) + nd) cs hall (by split <;> omega)
      generalize digitsValue _ cs = X at *
      have : (if s.isMin = true then (1:Int) else 0) ≥ 0 := by split <;> omega
      have : (if neg = true then (1:Int) else 0) ≤ 1 := by split <;> omega
      omega
    rw [if_neg hgt]
    have hmin : s.isMin = false := by
      cases hx : s.isMin
      · rfl
      · have := (hm hx).1; omega
    simp only [hmin, Bool.false_eq_true, if_false, Int.add_zero]
    by_cases heq : s.number = t.maxmax / 10
    · rw [if_pos heq]
      by_cases hle : nd ≤ last
      · rw [if_pos hle]
        by_cases hM : nd = last ∧ neg = true
        · simp only [hM.2, and_true] at *
          have e1 : t.cast (s.number * 10) = s.number * 10 := hid _ (by omega) (by omega)
          have e2 : t.cast (s.number * 10 + (nd - 1)) = s.number * 10 + (nd - 1) :=
            hid _ (by omega) (by simp at hlast; omega)
          simp only [hM, if_true, decide_true, Bool.or_true, e1] at *
          rw [e2, if_neg (by omega)]
          have := ih fuel hf' { ret := s.ret, number := s.number * 10 + (last - 1), isMin := true }
            hret (by simp; omega) (by simp; omega) (fun _ => by simp; omega)
          simp only [if_true] at this
          rw [show s.number * 10 + (last - 1) + 1 = 10 * s.number + last by omega] at this
          exact this
        · simp only [hM, if_false, decide_false, Bool.or_false]
          have hb : s.number * 10 + nd ≤ t.maxmax := by
            cases neg
            · simp at hlast; omega
            · simp at hlast hM; omega
          have e1 : t.cast (s.number * 10) = s.number * 10 := hid _ (by omega) (by omega)
          have e2 : t.cast (s.number * 10 + nd) = s.number * 10 + nd := hid _ (by omega) hb
          rw [e1, e2, if_neg (by omega)]
          have := ih fuel hf' { ret := s.ret, number := s.number * 10 + nd, isMin := s.isMin }
            hret (by simp; omega) (by simpa using hb) (by simp [hmin])
          simp only [hmin, Bool.false_eq_true, if_false, Int.add_zero] at this
          rw [show s.number * 10 + nd = 10 * s.number + nd by omega] at *
          simpa only [hmin] using this
      · rw [if_neg hle]
        simp only [Bool.false_eq_true, false_iff, false_implies, and_true]
        rintro ⟨hall, hle'⟩
        have := digitsValue_ge (10 * s.number + nd) cs hall (by omega)
        split at hle' <;> rename_i hn <;> simp [hn] at hlast <;> omega
    · rw [if_neg heq]
      have e1 : t.cast (s.number * 10) = s.number * 10 := hid _ (by omega) (by omega)
      have e2 : t.cast (s.number * 10 + nd) = s.number * 10 + nd := hid _ (by omega) (by omega)
      rw [e1, e2]
      have := ih fuel hf' { ret := s.ret, number := s.number * 10 + nd, isMin := s.isMin }
        hret (by simp; omega) (by simp; omega) (by simp [hmin])
      simp only [hmin, Bool.false_eq_true, if_false, Int.add_zero] at this
      rw [show s.number * 10 + nd = 10 * s.number + nd by omega] at *
      simpa only [hmin] using this

end Verif.IntText
