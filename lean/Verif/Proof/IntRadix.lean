import Verif.Model.IntRadix
import Verif.Spec.IntRadix
import Verif.Proof.IntText

namespace Verif.IntText
open Verif.Spec.IntText

/-! ## Values -/

def valAcc (base : Nat) (a : Nat) (cs : List UInt8) : Nat :=
  cs.foldl (fun a c => base * a + (hexDigit c).getD 0) a

theorem valueIn_eq (base : Nat) (cs : List UInt8) : valueIn base cs = valAcc base 0 cs := rfl

theorem valAcc_cons (base a : Nat) (c : UInt8) (cs : List UInt8) :
    valAcc base a (c :: cs) = valAcc base (base * a + (hexDigit c).getD 0) cs := rfl

theorem valAcc_split (base : Nat) (cs : List UInt8) (a : Nat) :
    valAcc base a cs = a * base ^ cs.length + valAcc base 0 cs := by
  induction cs generalizing a with
  | nil => simp [valAcc]
  | cons c cs ih =>
    rw [valAcc_cons, ih, valAcc_cons, ih (base * 0 + _), List.length_cons, Nat.pow_succ, Nat.mul_zero,
      Nat.zero_add, Nat.add_mul, Nat.add_assoc]
    congr 1
    rw [Nat.mul_comm base a, Nat.mul_assoc, Nat.mul_comm base]

theorem valueIn_cons (base : Nat) (c : UInt8) (cs : List UInt8) :
    valueIn base (c :: cs) = (hexDigit c).getD 0 * base ^ cs.length + valueIn base cs := by
  rw [valueIn_eq, valAcc_cons, valAcc_split, valueIn_eq]; simp

theorem valueIn_lt (base : Nat) (cs : List UInt8) (h : ∀ c ∈ cs, IsDigitOf base c) :
    valueIn base cs < base ^ cs.length := by
  induction cs with
  | nil => simp [valueIn]
  | cons c cs ih =>
    have := ih (fun c hc => h c (by simp [hc]))
    obtain ⟨d, hd, hlt⟩ := h c (by simp)
    rw [valueIn_cons, hd, Option.getD_some, List.length_cons, Nat.pow_succ, Nat.mul_comm _ base]
    have h2 : (d + 1) * base ^ cs.length ≤ base * base ^ cs.length := Nat.mul_le_mul_right _ hlt
    rw [Nat.add_mul] at h2
    omega

/-! ## Casts -/

theorem cast_eq_of_emod (t : IType) (a b : Int) (h : a % (2 ^ t.w : Int) = b % (2 ^ t.w : Int)) :
    t.cast a = t.cast b := by
  unfold IType.cast
  split
  · simp only [Int.bmod_def]
    have e : (((2 ^ t.w : Nat) : Int)) = (2 ^ t.w : Int) := by simp
    rw [e, h]
  · exact h

theorem cast_emod (t : IType) (a : Int) : t.cast a % (2 ^ t.w : Int) = a % (2 ^ t.w : Int) := by
  unfold IType.cast
  split
  · have e : (((2 ^ t.w : Nat) : Int)) = (2 ^ t.w : Int) := by simp
    have := @Int.bmod_emod a (2 ^ t.w)
    rw [e] at this; exact this
  · simp

theorem cast_step (t : IType) (a b m d : Int) (h : a % (2 ^ t.w : Int) = b % (2 ^ t.w : Int)) :
    t.cast (t.cast (a * m) + d) = t.cast (b * m + d) := by
  apply cast_eq_of_emod
  rw [Int.add_emod, cast_emod, ← Int.add_emod]
  rw [Int.add_emod, Int.mul_emod, h, ← Int.mul_emod, ← Int.add_emod]

/-! ## The parsing loops -/

/-- Common form of the three loops. -/
def gl (t : IType) (k : Nat) (dig : UInt8 → Option Int) (bad : Nat → Bool) :
    List UInt8 → Nat → Int → Bool × Int
  | [], _, n => (true, n)
  | c :: cs, sh, n =>
    match dig c with
    | none => (false, n)
    | some d =>
      if bad (sh + k) then (false, n)
      else gl t k dig bad cs (sh + k) (t.cast (t.cast (n * (2 ^ k : Nat)) + d))

theorem gl_spec (t : IType) (k : Nat) (dig : UInt8 → Option Int) (bad : Nat → Bool)
    (hdig : ∀ c d, dig c = some d → (hexDigit c).getD 0 = d) (cs : List UInt8) (sh : Nat) (n : Int) (v : Nat)
    (hn : n % (2 ^ t.w : Int) = (v : Int) % (2 ^ t.w : Int)) (hc : n = t.cast v) :
    ((gl t k dig bad cs sh n).1 = true ↔
      (∀ c ∈ cs, (dig c).isSome) ∧ ∀ j, 1 ≤ j → j ≤ cs.length → bad (sh + k * j) = false) ∧
    ((gl t k dig bad cs sh n).1 = true → (gl t k dig bad cs sh n).2 = t.cast (valAcc (2 ^ k) v cs)) := by
  induction cs generalizing sh n v with
  | nil => simp only [gl]; refine ⟨by simp; omega, fun _ => by simpa [valAcc] using hc⟩
  | cons c cs ih =>
    simp only [gl]
    cases hd : dig c with
    | none => simp [hd]
    | some d =>
      simp only
      cases hb : bad (sh + k) with
      | true =>
        simp only [if_true]
        refine ⟨⟨by simp, fun h => ?_⟩, by simp⟩
        have := h.2 1 (by omega) (by simp)
        rw [Nat.mul_one, hb] at this; exact absurd this (by simp)
      | false =>
        simp only [Bool.false_eq_true, if_false]
        have hv := hdig c d hd
        have e1 : t.cast (t.cast (n * (2 ^ k : Nat)) + d) = t.cast ((2 ^ k * v + (hexDigit c).getD 0 : Nat) : Int) := by
          rw [cast_step t n v _ d hn]
          congr 1
          rw [← hv]; push_cast
          rw [Int.mul_comm]
        have key := ih (sh + k) (t.cast (t.cast (n * (2 ^ k : Nat)) + d)) (2 ^ k * v + (hexDigit c).getD 0)
          (by rw [e1, cast_emod]) e1
        rw [valAcc_cons]
        refine ⟨?_, key.2⟩
        rw [key.1]
        constructor
        · rintro ⟨h1, h2⟩
          refine ⟨by intro x hx; rcases List.mem_cons.mp hx with rfl | hx; · simp [hd]
                     · exact h1 x hx, ?_⟩
          intro j hj1 hj2
          by_cases hj : j = 1
          · subst hj; rw [Nat.mul_one]; exact hb
          · have := h2 (j - 1) (by omega) (by simp at hj2; omega)
            have e : sh + k + k * (j - 1) = sh + k * j := by
              rw [Nat.add_assoc]; congr 1
              rw [Nat.mul_sub]; have : k * 1 ≤ k * j := Nat.mul_le_mul_left _ hj1; omega
            rw [← e]; exact this
        · rintro ⟨h1, h2⟩
          refine ⟨fun x hx => h1 x (by simp [hx]), ?_⟩
          intro j hj1 hj2
          have := h2 (j + 1) (by omega) (by simp; omega)
          rw [Nat.mul_add, Nat.mul_one, Nat.add_comm (k * j) k, ← Nat.add_assoc] at this
          exact this

/-- Digits of the octal and binary loops. -/
def digLow (m : Int) (c : UInt8) : Option Int :=
  let d := newDigitOf c 48
  if d < 0 ∨ d > m then none else some d

theorem hexDigitOf_eq (c : UInt8) : hexDigitOf c = (hexDigit c).map Int.ofNat := by
  have h : ∀ i : Fin 256, hexDigitOf (UInt8.ofNat i.val) = (hexDigit (UInt8.ofNat i.val)).map Int.ofNat := by
    decide +kernel
  have := h ⟨c.toNat, c.toNat_lt⟩
  simpa using this

theorem newDigit_val (c : UInt8) :
    newDigitOf c 48 = if c.toNat < 176 then (c.toNat : Int) - 48 else (c.toNat : Int) - 304 := by
  have h : ∀ i : Fin 256, newDigitOf (UInt8.ofNat i.val) 48 =
      if (UInt8.ofNat i.val).toNat < 176 then ((UInt8.ofNat i.val).toNat : Int) - 48
      else ((UInt8.ofNat i.val).toNat : Int) - 304 := by decide +kernel
  have := h ⟨c.toNat, c.toNat_lt⟩
  simpa using this

theorem digLow_some (m : Nat) (hm : m ≤ 9) (c : UInt8) (d : Int) (h : digLow m c = some d) :
    hexDigit c = some d.toNat ∧ 0 ≤ d ∧ d ≤ m := by
  have := c.toNat_lt
  unfold digLow at h
  simp only [newDigit_val] at h
  by_cases hc : c.toNat < 176
  · simp only [if_pos hc] at h
    split at h
    · exact absurd h (by simp)
    · simp only [Option.some.injEq] at h
      unfold hexDigit
      rw [if_pos (by constructor <;> omega)]
      refine ⟨?_, by omega, by omega⟩
      congr 1; omega
  · simp only [if_neg hc] at h
    rw [if_pos (by left; omega)] at h
    exact absurd h (by simp)

theorem digLow_isSome (m : Nat) (hm : m ≤ 9) (c : UInt8) : (digLow m c).isSome ↔ IsDigitOf (m + 1) c := by
  constructor
  · intro h
    obtain ⟨d, hd⟩ := Option.isSome_iff_exists.mp h
    obtain ⟨h1, h2, h3⟩ := digLow_some m hm c d hd
    exact ⟨_, h1, by omega⟩
  · rintro ⟨d, hd, hlt⟩
    have := c.toNat_lt
    unfold digLow
    simp only [newDigit_val]
    have hc : c.toNat = 48 + d := by
      unfold hexDigit at hd
      repeat' split at hd
      all_goals simp at hd
      all_goals omega
    simp only [if_pos (show c.toNat < 176 by omega)]
    rw [if_neg (by omega)]; rfl

theorem hexDigitOf_isSome (c : UInt8) : (hexDigitOf c).isSome ↔ IsDigitOf 16 c := by
  rw [hexDigitOf_eq]
  unfold IsDigitOf
  cases hd : hexDigit c with
  | none => simp
  | some d =>
    simp only [Option.map_some, Option.isSome_some, Option.some.injEq, true_iff]
    refine ⟨d, rfl, ?_⟩
    unfold hexDigit at hd
    repeat' split at hd
    all_goals simp at hd
    all_goals omega

theorem hexLoop_eq (t : IType) (hw : t.w ≤ 64) (fuel : Nat) (cs : List UInt8) (sh : Nat) (n : Int)
    (hs : sh ≤ t.w) (hf : t.w + 8 ≤ 4 * fuel + sh) :
    hexLoop t fuel cs sh n = gl t 4 hexDigitOf (fun s => decide (s > t.w)) cs sh n := by
  induction cs generalizing fuel sh n with
  | nil =>
    obtain ⟨fuel', e⟩ : ∃ f, fuel = f + 1 := ⟨fuel - 1, by omega⟩
    rw [e]; simp [hexLoop, gl]
  | cons c cs ih =>
    obtain ⟨fuel', e⟩ : ∃ f, fuel = f + 1 := ⟨fuel - 1, by omega⟩
    rw [e]
    have hsh : (sh + 4) % 256 = sh + 4 := by omega
    simp only [hexLoop, gl]
    cases hexDigitOf c with
    | none => rfl
    | some d =>
      simp only [hsh, decide_eq_true_eq]
      by_cases hw' : sh + 4 > t.w
      · simp only [if_pos hw']
      · simp only [if_neg hw']
        rw [ih fuel' (sh + 4) _ (by omega) (by omega)]
        rfl

theorem binLoop_eq (t : IType) (hw : t.w ≤ 64) (fuel : Nat) (cs : List UInt8) (sh : Nat) (n : Int)
    (hs : sh ≤ t.w) (hf : t.w + 8 ≤ fuel + sh) :
    binLoop t fuel cs sh n = gl t 1 (digLow (1 : Nat)) (fun s => decide (s > t.w)) cs sh n := by
  induction cs generalizing fuel sh n with
  | nil => cases fuel <;> simp [binLoop, gl]
  | cons c cs ih =>
    cases fuel with
    | zero => omega
    | succ fuel =>
      have hsh : (sh + 1) % 256 = sh + 1 := by omega
      simp only [binLoop, gl, digLow]
      by_cases hd : newDigitOf c 48 < 0 ∨ newDigitOf c 48 > 1
      · have hd' : newDigitOf c 48 < 0 ∨ newDigitOf c 48 > ((1 : Nat) : Int) := hd
        rw [if_pos hd, if_pos hd']
      · have hd' : ¬ (newDigitOf c 48 < 0 ∨ newDigitOf c 48 > ((1 : Nat) : Int)) := hd
        rw [if_neg hd, if_neg hd']
        simp only [hsh, decide_eq_true_eq]
        split
        · rfl
        · rw [ih fuel (sh + 1) _ (by omega) (by omega)]
          rfl

/-- When the octal loop gives up. -/
def octBad (t : IType) (f : Int) (s : Nat) : Bool :=
  decide ((s = t.w + 1 ∧ f > 3) ∨ (s = t.w + 2 ∧ f > 1) ∨ s > t.w + 2)

theorem octLoop_eq (t : IType) (hw : t.w ≤ 64) (f : Int) (fuel : Nat) (cs : List UInt8) (sh : Nat) (n : Int)
    (hs : sh ≤ t.w + 2) (hf : t.w + 8 ≤ 3 * fuel + sh) :
    octLoop t f fuel cs sh n = gl t 3 (digLow (7 : Nat)) (octBad t f) cs sh n := by
  induction cs generalizing fuel sh n with
  | nil => cases fuel <;> simp [octLoop, gl]
  | cons c cs ih =>
    cases fuel with
    | zero => omega
    | succ fuel =>
      have hsh : (sh + 3) % 256 = sh + 3 := by omega
      simp only [octLoop, gl, digLow]
      by_cases hd : newDigitOf c 48 < 0 ∨ newDigitOf c 48 > 7
      · have hd' : newDigitOf c 48 < 0 ∨ newDigitOf c 48 > ((7 : Nat) : Int) := hd
        rw [if_pos hd, if_pos hd']
      · have hd' : ¬ (newDigitOf c 48 < 0 ∨ newDigitOf c 48 > ((7 : Nat) : Int)) := hd
        rw [if_neg hd, if_neg hd']
        simp only [hsh, octBad, decide_eq_true_eq]
        split
        · rfl
        · rename_i hb
          rw [ih fuel (sh + 3) _ (by omega) (by omega)]
          rfl

/-! ## The number of digits -/

/-- The stages halve the number of bits each time: `b` bounds the bits before. -/
def Chain (k : Nat) : Nat → List (Nat × Nat) → Prop
  | b, [] => b ≤ k
  | b, s :: ss => s.1 = k * s.2 ∧ b ≤ 2 * s.1 ∧ Chain k s.1 ss

theorem runStages_spec (k : Nat) (n : Nat) (ss : List (Nat × Nat)) (b : Nat) (hch : Chain k b ss)
    (x : Nat × Nat) (hx : x.1 = n / 2 ^ (k * (x.2 - 1))) (h1 : 1 ≤ x.2) (hb : x.1 < 2 ^ b)
    (hlo : x.2 = 1 ∨ 1 ≤ x.1) :
    let y := runStages ss x
    1 ≤ y.2 ∧ n / 2 ^ (k * (y.2 - 1)) < 2 ^ k ∧ (y.2 = 1 ∨ 1 ≤ n / 2 ^ (k * (y.2 - 1))) := by
  induction ss generalizing x b with
  | nil =>
    simp only [runStages]
    have hpow : 2 ^ b ≤ 2 ^ k := Nat.pow_le_pow_right (by omega) hch
    rw [← hx]
    exact ⟨h1, by omega, hlo⟩
  | cons s ss ih =>
    obtain ⟨e, hle, hch⟩ := hch
    simp only [runStages]
    unfold stage
    by_cases hc : x.1 ≥ 2 ^ s.1
    · rw [if_pos hc]
      have hp : 0 < 2 ^ s.1 := Nat.pow_pos (by omega)
      refine ih s.1 hch _ ?_ (by simp; omega) ?_ (.inr ?_)
      · simp only
        rw [hx, Nat.div_div_eq_div_mul, ← Nat.pow_add]
        congr 2
        rw [e, ← Nat.mul_add]
        congr 1; omega
      · simp only
        rw [Nat.div_lt_iff_lt_mul hp, ← Nat.pow_add]
        have : 2 ^ b ≤ 2 ^ (s.1 + s.1) := Nat.pow_le_pow_right (by omega) (by omega)
        omega
      · simp only
        exact (Nat.le_div_iff_mul_le hp).mpr (by omega)
    · rw [if_neg hc]
      exact ih s.1 hch x hx h1 (by omega) hlo

theorem stages_chain (r : Radix) (t : IType) (ht : IsCxxType t) : Chain r.bits t.w (r.stages t.w) := by
  obtain ⟨w, s⟩ := t
  rcases ht with h | h | h | h <;> simp only at h <;> subst h <;> cases r <;>
    simp [Radix.stages, Radix.bits, Chain]

/-- The two's complement pattern. -/
def pattern (t : IType) (n : Int) : Nat := (n % (2 ^ t.w : Int)).toNat

theorem numberOfDigits_spec (r : Radix) (t : IType) (ht : IsCxxType t) (n : Int) (hn : InRange t n) :
    1 ≤ numberOfDigits r t n ∧ pattern t n < 2 ^ (r.bits * numberOfDigits r t n) ∧
    (numberOfDigits r t n = 1 ∨ 2 ^ (r.bits * (numberOfDigits r t n - 1)) ≤ pattern t n) ∧
    r.bits * (numberOfDigits r t n - 1) < t.w := by
  have hk : 1 ≤ r.bits := by cases r <;> simp [Radix.bits]
  by_cases h0 : n ≥ 0
  · have hnu : numberOfDigits r t n = (runStages (r.stages t.w) (n.toNat, 1)).2 := by
      unfold numberOfDigits; rw [if_pos h0]
    have hmax : maxVal t < 2 ^ t.w := by
      unfold maxVal; split
      · have : (2:Int) ^ (t.w - 1) ≤ 2 ^ t.w := by
          exact_mod_cast Nat.pow_le_pow_right (n := 2) (by omega) (by omega)
        omega
      · omega
    have hlt : n < 2 ^ t.w := by have := hn.2; omega
    have hpat : pattern t n = n.toNat := by
      unfold pattern; rw [Int.emod_eq_of_lt h0 hlt]
    have hlt' : n.toNat < 2 ^ t.w := by
      have : ((2 ^ t.w : Nat) : Int) = (2 : Int) ^ t.w := by simp
      omega
    have key := runStages_spec r.bits n.toNat (r.stages t.w) t.w (stages_chain r t ht) (n.toNat, 1)
      (by simp) (by simp) hlt' (.inl rfl)
    simp only at key
    rw [← hnu] at key
    rw [hpat]
    generalize numberOfDigits r t n = m at *
    obtain ⟨k1, k2, k3⟩ := key
    have hp : 0 < 2 ^ (r.bits * (m - 1)) := Nat.pow_pos (by omega)
    have hlo : m = 1 ∨ 2 ^ (r.bits * (m - 1)) ≤ n.toNat := by
      rcases k3 with h | h
      · exact .inl h
      · right; have := (Nat.le_div_iff_mul_le hp).mp h; omega
    refine ⟨k1, ?_, hlo, ?_⟩
    · rw [Nat.div_lt_iff_lt_mul hp, ← Nat.pow_add] at k2
      have e : r.bits + r.bits * (m - 1) = r.bits * m := by
        rw [Nat.mul_sub]; have : r.bits * 1 ≤ r.bits * m := Nat.mul_le_mul_left _ k1; omega
      rw [e] at k2; exact k2
    · rcases hlo with h | h
      · subst h; rcases ht with h | h | h | h <;> simp [h]
      · have : 2 ^ (r.bits * (m - 1)) < 2 ^ t.w := by omega
        exact (Nat.pow_lt_pow_iff_right (by omega)).mp this
  · have hsg : t.signed = true := by
      cases h' : t.signed
      · have : minVal t = 0 := by simp [minVal, h']
        have := hn.1; omega
      · rfl
    obtain ⟨w, s⟩ := t
    simp only at hsg; subst hsg
    have h1 := hn.1
    unfold minVal at h1
    simp only [if_true] at h1
    unfold pattern numberOfDigits
    rw [if_neg h0]
    rcases ht with h | h | h | h <;> simp only at h <;> subst h <;> cases r <;>
      simp [Radix.bits] at * <;> omega

/-! ## The printing loop -/

theorem hexDigit_radixChar (d : Nat) (h : d < 16) : hexDigit (radixChar d) = some d := by
  have : ∀ d : Fin 16, hexDigit (radixChar d.val) = some d.val := by decide
  exact this ⟨d, h⟩

/-- The letters among the printed digits are capitals. -/
theorem radixLoop_upper (k : Nat) (hk4 : k ≤ 4) (w u : Nat) : ∀ (fuel : Nat) (i : Int), ∀ c ∈ radixLoop k w u fuel i, c.toNat < 97 := by
  intro fuel
  induction fuel with
  | zero => intro i c hc; simp [radixLoop] at hc
  | succ fuel ih =>
    intro i c hc
    simp only [radixLoop] at hc
    split at hc
    · rcases List.mem_cons.mp hc with h | h
      · have h16 : ∀ d : Fin 16, (radixChar d.val).toNat < 97 := by decide
        rw [h]
        have hp : 2 ^ k ≤ 2 ^ 4 := Nat.pow_le_pow_right (by omega) hk4
        exact h16 ⟨_, Nat.lt_of_lt_of_le (Nat.mod_lt _ (Nat.pow_pos (by omega))) hp⟩
      · exact ih _ c h
    · simp at hc

theorem radixLoop_spec (k : Nat) (hk : 1 ≤ k) (hk4 : k ≤ 4) (w u : Nat) (hu : u < 2 ^ w) (nd fuel : Nat)
    (hf : nd ≤ fuel) :
    let ds := radixLoop k w u fuel (((nd : Int) - 1) * k)
    ds.length = nd ∧ (∀ c ∈ ds, IsDigitOf (2 ^ k) c) ∧ valueIn (2 ^ k) ds = u % 2 ^ (k * nd) ∧
    (∀ c, ds.head? = some c → hexDigit c = some (u / 2 ^ (k * (nd - 1)) % 2 ^ k)) := by
  induction nd generalizing fuel with
  | zero =>
    have hneg : ((((0:Nat):Int) - 1) * k) < 0 := by simp; omega
    cases fuel with
    | zero => simp [radixLoop, valueIn, Nat.mod_one]
    | succ fuel =>
      simp only [radixLoop]
      rw [if_neg (by omega)]
      simp [valueIn, Nat.mod_one]
  | succ nd ih =>
    cases fuel with
    | zero => omega
    | succ fuel =>
      have e0 : (((nd + 1 : Nat) : Int) - 1) * k = ((nd * k : Nat) : Int) := by
        push_cast; congr 1; omega
      have e1 : ((nd * k : Nat) : Int) - k = ((nd : Int) - 1) * k := by
        push_cast; rw [Int.sub_mul]; simp
      simp only [radixLoop, e0]
      rw [if_pos (by omega), e1]
      obtain ⟨h1, h2, h3, h4⟩ := ih fuel (by omega)
      have hsh : (if (((nd * k : Nat) : Int)).toNat ≥ w then 0 else u / 2 ^ (((nd * k : Nat) : Int)).toNat) =
          u / 2 ^ (nd * k) := by
        rw [Int.toNat_natCast]
        split
        · rename_i h
          have : 2 ^ w ≤ 2 ^ (nd * k) := Nat.pow_le_pow_right (by omega) h
          exact (Nat.div_eq_of_lt (by omega)).symm
        · rfl
      simp only [hsh]
      have hmm : u / 2 ^ (nd * k) % 256 % 2 ^ k = u / 2 ^ (nd * k) % 2 ^ k := by
        apply Nat.mod_mod_of_dvd
        exact Nat.pow_dvd_pow 2 (show k ≤ 8 by omega)
      rw [hmm]
      have hlt : u / 2 ^ (nd * k) % 2 ^ k < 2 ^ k := Nat.mod_lt _ (Nat.pow_pos (by omega))
      have h16 : 2 ^ k ≤ 2 ^ 4 := Nat.pow_le_pow_right (by omega) hk4
      have hch := hexDigit_radixChar (u / 2 ^ (nd * k) % 2 ^ k) (by omega)
      refine ⟨by simp [h1], ?_, ?_, ?_⟩
      · intro c hc
        rcases List.mem_cons.mp hc with rfl | hc
        · exact ⟨_, hch, hlt⟩
        · exact h2 c hc
      · rw [valueIn_cons, hch, Option.getD_some, h1, h3, ← Nat.pow_mul, Nat.mul_comm nd k,
          Nat.mul_add, Nat.mul_one, Nat.pow_add, Nat.mod_mul, Nat.mul_comm _ (2 ^ (k * nd))]
        omega
      · intro c hc
        simp only [List.head?_cons, Option.some.injEq] at hc
        rw [← hc, hch, Nat.add_sub_cancel, Nat.mul_comm nd k]

end Verif.IntText
