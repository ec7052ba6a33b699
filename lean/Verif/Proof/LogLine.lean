import Verif.Spec.LogLine
import Verif.Props.Format
/-! # Proofs about the lines of a logger: the printed fields -/
namespace Verif.LogLine
open Verif.Format Verif.Spec.Format Verif.Spec.LogLine
open Verif.IntText (IType)
open Verif.Spec.IntText (IsCxxType InRange minVal)
set_option linter.unusedSimpArgs false

/-! ## Numerals -/

theorem value_snoc (b : Nat) (ds : List Nat) (d : Nat) : value b (ds ++ [d]) = b * value b ds + d := by simp [value]

theorem value_cons (b : Nat) (d : Nat) (ds : List Nat) : value b (d :: ds) = d * b ^ ds.length + value b ds := by
  have gen : ∀ (ds : List Nat) (a : Nat), ds.foldl (fun a d => b * a + d) a = a * b ^ ds.length + value b ds := by
    intro ds
    induction ds with
    | nil => intro a; simp [value]
    | cons x t ih =>
      intro a
      simp only [List.foldl_cons, value, List.length_cons]
      rw [ih, ih (b * 0 + x), Nat.pow_succ]
      grind
  have := gen ds (b * 0 + d)
  simpa [value] using this

/-- Digits without zeros in front are the usual ones. -/
theorem toDigits_of (ds : List Nat) (v : Nat) (h : Numeral 10 ds v) (h0 : ds.head? = some 0 → ds = [0]) :
    ds.map digitChar = Nat.toDigits 10 v := by
  obtain ⟨hne, hlt, rfl⟩ := h
  have dig : ∀ d, d < 10 → digitChar d = Nat.digitChar d := by decide
  have gen : ∀ n (ds : List Nat), ds.length = n → ds ≠ [] → (∀ d ∈ ds, d < 10) → (ds.head? = some 0 → ds = [0]) →
      ds.map digitChar = Nat.toDigits 10 (value 10 ds) := by
    intro n
    induction n with
    | zero => intro ds hl hne; exact absurd (List.eq_nil_of_length_eq_zero hl) hne
    | succ n ih =>
      intro ds hl hne hlt h0
      obtain ⟨t, d, rfl⟩ : ∃ t d, ds = t ++ [d] := ⟨ds.dropLast, ds.getLast hne, (List.dropLast_concat_getLast hne).symm⟩
      have hd : d < 10 := hlt d (by simp)
      rw [value_snoc]
      cases t with
      | nil => simp [value, Nat.toDigits_of_lt_base hd, dig d hd]
      | cons x t =>
        have hx : x ≠ 0 := by
          rintro rfl
          have := h0 (by simp)
          simp at this
        have hpos : 0 < value 10 (x :: t) := by
          rw [value_cons]
          have : 0 < x * 10 ^ t.length := Nat.mul_pos (by omega) (Nat.pow_pos (by decide))
          omega
        have hih := ih (x :: t) (by simp at hl ⊢; omega) (by simp) (fun d hd => hlt d (by simp at hd ⊢; rcases hd with h | h <;> simp [h]))
          (by intro h; simp at h; exact absurd h hx)
        rw [List.map_append, hih, ← Nat.toDigits_append_toDigits (by decide) hpos hd]
        simp [Nat.toDigits_of_lt_base hd, dig d hd]
  exact gen _ ds rfl hne hlt h0

/-- Digits of a given number. -/
theorem digits_of (b : Nat) (hb : 0 < b) : ∀ (n : Nat) (ds : List Nat), ds.length = n → (∀ d ∈ ds, d < b) →
    ds = (List.range n).map fun k => value b ds / b ^ (n - 1 - k) % b := by
  intro n
  induction n with
  | zero => intro ds hl _; simp [List.eq_nil_of_length_eq_zero hl]
  | succ n ih =>
    intro ds hl hlt
    have hne : ds ≠ [] := by rintro rfl; simp at hl
    obtain ⟨t, d, rfl⟩ : ∃ t d, ds = t ++ [d] := ⟨ds.dropLast, ds.getLast hne, (List.dropLast_concat_getLast hne).symm⟩
    have hd : d < b := hlt d (by simp)
    have htl : t.length = n := by simpa using hl
    have hih := ih t htl (fun x hx => hlt x (by simp [hx]))
    rw [List.range_succ, List.map_append, value_snoc]
    congr 1
    · conv => lhs; rw [hih]
      apply List.map_congr_left
      intro k hk
      have hk := List.mem_range.mp hk
      rw [show n + 1 - 1 - k = (n - 1 - k) + 1 by omega, Nat.pow_succ, Nat.mul_comm (b ^ (n - 1 - k)) b, ← Nat.div_div_eq_div_mul,
        Nat.mul_add_div hb, Nat.div_eq_of_lt hd, Nat.add_zero]
    · simp [Nat.mul_add_mod, Nat.mod_eq_of_lt hd]

theorem value_lt (b : Nat) : ∀ (ds : List Nat), (∀ d ∈ ds, d < b) → value b ds < b ^ ds.length := by
  intro ds
  induction ds with
  | nil => intro _; simp [value]
  | cons x t ih =>
    intro h
    rw [value_cons, List.length_cons, Nat.pow_succ]
    have h1 := ih (fun d hd => h d (by simp [hd]))
    have h2 : (x + 1) * b ^ t.length ≤ b * b ^ t.length := Nat.mul_le_mul_right _ (h x (by simp))
    rw [Nat.mul_comm (b ^ t.length) b]
    rw [Nat.add_mul] at h2
    omega

/-! ## Fields -/

def lit1 : List Char → Nat := fun _ => 1

def dS : Directive := ⟨[], [], none, .s⟩
def dD : Directive := ⟨[], [], none, .d⟩
def dP : Directive := ⟨[], [], none, .p⟩
def d2 : Directive := ⟨[.zero], [2], none, .d⟩

theorem wf_s : dS.wf := ⟨by simp [dS], by simp [dS], by simp [dS]⟩
theorem wf_d : dD.wf := ⟨by simp [dD], by simp [dD], by simp [dD]⟩
theorem wf_p : dP.wf := ⟨by simp [dP], by simp [dP], by simp [dP]⟩
theorem wf_2 : d2.wf := ⟨by simp [d2], by simp [d2], by simp [d2]⟩
theorem sm_s : dS.small := by simp [Directive.small, dS, value]
theorem sm_d : dD.small := by simp [Directive.small, dD, value]
theorem sm_p : dP.small := by simp [Directive.small, dP, value]
theorem sm_2 : d2.small := by simp [Directive.small, d2, value]

theorem one_text (s : Text) : printf lit1 dS.text [cstr (some s)] = some (true, s) := by
  rw [cstr, c56_text_partial lit1 dS wf_s sm_s (by decide) (by decide) 1 (by decide) s (by simp [Directive.full, dS])
    (by simp [Directive.full, dS])]
  simp [textField, fill, quoted, Directive.size, Directive.full, Directive.padded, dS, value]

theorem one_null : printf lit1 dS.text [cstr none] = some (false, []) := by
  rw [cstr, printf_single lit1 dS wf_s]
  rfl

theorem one_decimal (t : IType) (ht : IsCxxType t) (v : Int) (hv : InRange t v) :
    printf lit1 dD.text [.scalar (.int t v)] = some (true, decimal v) := by
  obtain ⟨ds, h1, h2, h3⟩ := c56_decimal_partial lit1 dD wf_d sm_d (by decide) (by decide) t ht v hv
    (by simp [Directive.zeros, dD]) (by simp [Directive.padded, dD])
  rw [h3, toDigits_of ds _ h1 h2]
  by_cases hn : v < 0 <;>
    simp [decimalField, decimal, numField, fill, Directive.size, Directive.zeros, Directive.padded, Directive.left, dD, value, hn]

theorem digits_len (v : Nat) (h : v < 100) : (Nat.toDigits 10 v).length = if v < 10 then 1 else 2 := by
  by_cases h10 : v < 10
  · rw [if_pos h10, Nat.toDigits_of_lt_base h10]; rfl
  · rw [if_neg h10]
    have h1 : (Nat.toDigits 10 v).length ≤ 2 := (Nat.length_toDigits_le_iff (by decide) (by decide)).mpr (by omega)
    have h2 : ¬ (Nat.toDigits 10 v).length ≤ 1 := by
      rw [Nat.length_toDigits_le_iff (by decide) (by decide)]; omega
    omega

theorem one_two (n : Nat) (hn : n < 100) : printf lit1 d2.text [.scalar (.int u32 n)] = some (true, two n) := by
  obtain ⟨ds, h1, h2, h3⟩ := c56_decimal_partial lit1 d2 wf_2 sm_2 (by decide) (by decide) u32 (by simp [IsCxxType, u32]) n
    (by simp only [InRange, u32, minVal, Verif.Spec.IntText.maxVal]; simp; omega) (by omega)
    (by intro _ h; exact absurd h (by omega))
  rw [h3, toDigits_of ds _ h1 h2]
  have hl := digits_len n hn
  have hneg : ¬ ((n : Int) < 0) := by omega
  by_cases h10 : n < 10 <;>
    simp [decimalField, two, numField, fill, Directive.size, Directive.zeros, Directive.padded, Directive.left, d2, value,
      hneg, hl, h10]

theorem one_address (a : Nat) (h0 : a ≠ 0) (ha : a < 2 ^ 64) :
    printf lit1 dP.text [.scalar (.pointer a)] = some (true, address a) := by
  rw [c56_pointer lit1 dP wf_p sm_p (by decide) a h0]
  obtain ⟨ds, h1, h2, h3, h4⟩ := c56_radix lit1 dP wf_p sm_p (by decide) ⟨64, false⟩ (by simp [IsCxxType]) a
    (by simp only [InRange, minVal, Verif.Spec.IntText.maxVal]; simp; omega)
  rw [h4]
  have hb : dP.base = 16 := rfl
  have hm : dP.minDigits (IType.w ⟨64, false⟩) = 16 := by decide
  rw [hb] at h1
  rw [hm] at h2 h3
  have hv : ((a : Int) % 2 ^ 64).toNat = a := by
    rw [Int.emod_eq_of_lt (by omega) (by exact_mod_cast ha)]; simp
  change Numeral 16 ds ((a : Int) % 2 ^ 64).toNat at h1
  rw [hv] at h1
  obtain ⟨hne, hlt, hval⟩ := h1
  have hlen : ds.length = 16 := by
    cases ds with
    | nil => exact absurd rfl hne
    | cons x t =>
      apply Decidable.byContradiction
      intro hc
      have hx : x ≠ 0 := by
        rintro rfl
        have := h3 hc rfl
        injection this with _ this
        subst this
        simp at h2
      rw [value_cons] at hval
      have h5 : 16 ^ 16 ≤ 16 ^ t.length := Nat.pow_le_pow_right (by decide) (by simp at h2 hc; omega)
      have h6 : 1 * 16 ^ t.length ≤ x * 16 ^ t.length := Nat.mul_le_mul_right _ (by omega)
      have h7 : (16 : Nat) ^ 16 = 2 ^ 64 := by decide
      omega
  have hd := digits_of 16 (by decide) 16 ds hlen hlt
  rw [hval] at hd
  rw [hd]
  have : ∀ d, d < 16 → digitChar d = hexDigit d := by decide
  have hs : dP.size = 0 := rfl
  have hf : dP.full = true := rfl
  have hp : dP.padded = false := rfl
  simp only [numField, fill, hs, hf, hp, hb, address, List.map_map]
  simp only [true_or, if_true, Bool.false_eq_true, if_false, header]
  congr 2

/-! ## Formats -/

theorem two_fields (k : Text) (d : Directive) (hd : d.wf) (a : Arg) (b : Bool) (t : Text) (h : printf lit1 d.text [a] = some (b, t)) :
    printf lit1 (dS.text ++ d.text) [cstr (some k), a] = some (b, k ++ t) := by
  have := c56_formatted lit1 [.field dS, .field d] (by simp [Piece.wf, wf_s, hd]) [cstr (some k), a]
  simp only [render, List.map_cons, List.map_nil, Piece.render, List.flatten_cons, List.flatten_nil, List.append_nil] at this
  rw [this]
  simp only [expected, one_text, h]
  cases b <;> simp

theorem put_text (s k t : Text) : put (some s) "%s%s" [cstr (some k), cstr (some t)] = some (s ++ (k ++ t)) := by
  have := two_fields k dS wf_s (cstr (some t)) true t (one_text t)
  have e : dS.text ++ dS.text = "%s%s".toList := by decide
  rw [e] at this
  simp only [put]
  unfold lit1 at this
  rw [this]

theorem put_null (s k : Text) : put (some s) "%s%s" [cstr (some k), cstr none] = some (s ++ (k ++ [])) := by
  have := two_fields k dS wf_s (cstr none) false [] one_null
  have e : dS.text ++ dS.text = "%s%s".toList := by decide
  rw [e] at this
  simp only [put]
  unfold lit1 at this
  rw [this]

theorem put_opt (s k : Text) (t : Option Text) : put (some s) "%s%s" [cstr (some k), cstr t] = some (s ++ (k ++ t.getD [])) := by
  cases t with
  | none => exact put_null s k
  | some t => exact put_text s k t

theorem put_key (s k : Text) : put (some s) "%s" [cstr (some k)] = some (s ++ k) := by
  have := one_text k
  have e : dS.text = "%s".toList := by decide
  rw [e] at this
  simp only [put]
  unfold lit1 at this
  rw [this]

theorem put_dec (s k : Text) (t : IType) (ht : IsCxxType t) (v : Int) (hv : InRange t v) :
    put (some s) "%s%d" [cstr (some k), .scalar (.int t v)] = some (s ++ (k ++ decimal v)) := by
  have := two_fields k dD wf_d _ true _ (one_decimal t ht v hv)
  have e : dS.text ++ dD.text = "%s%d".toList := by decide
  rw [e] at this
  simp only [put]
  unfold lit1 at this
  rw [this]

theorem put_addr (s k : Text) (a : Nat) (h0 : a ≠ 0) (ha : a < 2 ^ 64) :
    put (some s) "%s%p" [cstr (some k), .scalar (.pointer a)] = some (s ++ (k ++ address a)) := by
  have := two_fields k dP wf_p _ true _ (one_address a h0 ha)
  have e : dS.text ++ dP.text = "%s%p".toList := by decide
  rw [e] at this
  simp only [put]
  unfold lit1 at this
  rw [this]

theorem put_time (s k : Text) (h m c n : Nat) (hh : h < 100) (hm : m < 100) (hc : c < 100) (hn : n < 2 ^ 64) :
    put (some s) "%s%02d:%02d:%02d (%d)" [cstr (some k), .scalar (.int u32 h), .scalar (.int u32 m), .scalar (.int u32 c),
      .scalar (.int u64 n)] =
    some (s ++ (k ++ (two h ++ [':'] ++ two m ++ [':'] ++ two c ++ [' ', '('] ++ decimal n ++ [')']))) := by
  have := c56_formatted lit1 [.field dS, .field d2, .text [':'], .field d2, .text [':'], .field d2, .text [' ', '('], .field dD, .text [')']]
    (by simp [Piece.wf, wf_s, wf_2, wf_d]) [cstr (some k), .scalar (.int u32 h), .scalar (.int u32 m), .scalar (.int u32 c), .scalar (.int u64 n)]
  have e : render [.field dS, .field d2, .text [':'], .field d2, .text [':'], .field d2, .text [' ', '('], .field dD, .text [')']] =
    "%s%02d:%02d:%02d (%d)".toList := by decide
  rw [e] at this
  have hd := one_decimal u64 (by simp [IsCxxType, u64]) n
    (by simp only [InRange, u64, minVal, Verif.Spec.IntText.maxVal]; simp; omega)
  simp only [expected, one_text, one_two _ hh, one_two _ hm, one_two _ hc, hd] at this
  simp only [put]
  unfold lit1 at this
  rw [this]
  simp

theorem put_file (s k f : Text) (v : Int) (h1 : -2 ^ 15 ≤ v) (h2 : v < 2 ^ 15) :
    put (some s) "%s%s:%d" [cstr (some k), cstr (some f), .scalar (.int i16 v)] = some (s ++ (k ++ (f ++ [':'] ++ decimal v))) := by
  have := c56_formatted lit1 [.field dS, .field dS, .text [':'], .field dD]
    (by simp [Piece.wf, wf_s, wf_d]) [cstr (some k), cstr (some f), .scalar (.int i16 v)]
  have e : render [.field dS, .field dS, .text [':'], .field dD] = "%s%s:%d".toList := by decide
  rw [e] at this
  have hd := one_decimal i16 (by simp [IsCxxType, i16]) v
    (by simp only [InRange, i16, minVal, Verif.Spec.IntText.maxVal]; simp; omega)
  simp only [expected, one_text, hd] at this
  simp only [put]
  unfold lit1 at this
  rw [this]
  simp

theorem put_nofile (s k : Text) (v : Int) :
    put (some s) "%s%s:%d" [cstr (some k), cstr none, .scalar (.int i16 v)] = some (s ++ (k ++ [])) := by
  have := c56_formatted lit1 [.field dS, .field dS, .text [':'], .field dD]
    (by simp [Piece.wf, wf_s, wf_d]) [cstr (some k), cstr none, .scalar (.int i16 v)]
  have e : render [.field dS, .field dS, .text [':'], .field dD] = "%s%s:%d".toList := by decide
  rw [e] at this
  simp only [expected, one_text, one_null] at this
  simp only [put]
  unfold lit1 at this
  rw [this]
  simp

end Verif.LogLine
