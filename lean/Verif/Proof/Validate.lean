import Verif.Spec.Validate
import Verif.Props.IntText
namespace Verif.Validate
open Verif.IntText Verif.Spec.IntText Verif.Spec.Validate

theorem read_decimal (t : IType) (ht : IsCxxType t) (n : Int) (hn : InRange t n) (s : Text) (hs : Decimal n s) : readInt t s = some n := by
  obtain ⟨body, hp, hd, hne, hv, hz⟩ := hs
  suffices h : stringToInteger t s = (true, n) by simp [readInt, h]
  have hmag : (n.natAbs : Int) < 10 ^ 20 := by
    obtain ⟨h1, h2⟩ := hn
    rcases t with ⟨w, s⟩
    rcases ht with h | h | h | h <;> simp only at h <;> subst h <;> cases s <;> simp [minVal, maxVal] at h1 h2 <;> omega
  have hl := length_of_value body hd hz 19 (by rw [hv]; exact hmag)
  have hfirst : ∀ c, body.head? = some c → IsDigit c := fun c h => hd c (List.mem_of_head? h)
  have fin : ∀ r : Bool × Int, r.1 = true → r.2 = n → r = (true, n) := by
    rintro ⟨a, b⟩ rfl rfl; rfl
  by_cases hneg : n < 0
  · rw [if_pos hneg] at hp
    rw [hp, (c15_dispatch t).1 _ (by simp)]
    have hsg : t.signed = true := by
      cases h' : t.signed
      · have : minVal t = 0 := by simp [minVal, h']
        have := hn.1; omega
      · rfl
    have key := c15_decimal_exact_partial t ht .minus body (by simp [Sign.text]; omega) (by simp) (fun _ => hsg)
    have hval : signedValue .minus body = n := by simp only [signedValue, hv]; omega
    rw [hval] at key
    have h1 := key.1.mpr ⟨hd, hn⟩
    exact fin _ h1 (key.2 h1)
  · rw [if_neg hneg, List.nil_append] at hp
    rw [hp]
    have hval : signedValue .none body = n := by simp only [signedValue, hv]; omega
    by_cases h0 : body.head? = some 48
    · have hb := hz h0
      rw [hb] at hv
      have : n = 0 := by
        have : digitsValue 0 [48] = 0 := by decide
        omega
      rw [hb, this]; rfl
    · rw [(c15_dispatch t).1 _ h0]
      have key := c15_decimal_exact_partial t ht .none body (by simp [Sign.text]; omega)
        (fun _ => ⟨fun h => by have := hfirst _ h; revert this; unfold IsDigit; decide,
          fun h => by have := hfirst _ h; revert this; unfold IsDigit; decide⟩) (by simp)
      simp only [Sign.text, List.nil_append] at key
      rw [hval] at key
      have h1 := key.1.mpr ⟨hd, hn⟩
      exact fin _ h1 (key.2 h1)

theorem digitsValue_lt : ∀ (b : List UInt8) (acc : Int), (∀ c ∈ b, IsDigit c) → digitsValue acc b < (acc + 1) * 10 ^ b.length
  | [], acc, _ => by simp [digitsValue]; omega
  | c :: b, acc, h => by
    have hc : IsDigit c := h c (by simp)
    have ih := digitsValue_lt b (10 * acc + ((c.toNat : Int) - 48)) (fun x hx => h x (by simp [hx]))
    have e : digitsValue acc (c :: b) = digitsValue (10 * acc + ((c.toNat : Int) - 48)) b := rfl
    rw [e, List.length_cons]
    refine Int.lt_of_lt_of_le ih ?_
    rw [show (10 : Int) ^ (b.length + 1) = 10 * 10 ^ b.length by rw [Int.pow_succ, Int.mul_comm], ← Int.mul_assoc]
    apply Int.mul_le_mul_of_nonneg_right
    · unfold IsDigit at hc; omega
    · exact Int.le_of_lt (Int.pow_pos (by decide))

theorem body_length_le {b1 b2 : List UInt8} (h1 : ∀ c ∈ b1, IsDigit c) (z1 : b1.head? = some 48 → b1 = [48]) (h2 : ∀ c ∈ b2, IsDigit c) (n2 : b2 ≠ [])
    (hv : digitsValue 0 b1 = digitsValue 0 b2) : b1.length ≤ b2.length := by
  obtain ⟨k, hk⟩ : ∃ k, b2.length = k + 1 := ⟨b2.length - 1, by
    have : 0 < b2.length := List.length_pos_iff.2 n2
    omega⟩
  have := digitsValue_lt b2 0 h2
  rw [hk, show ((0 : Int) + 1) * 10 ^ (k + 1) = 10 ^ (k + 1) by simp] at this
  have := length_of_value b1 h1 z1 k (by rw [hv]; exact this)
  omega

theorem decimal_length {n : Int} {s t : Text} (hs : Decimal n s) (ht : Decimal n t) : s.length = t.length := by
  obtain ⟨a, e1, d1, n1, v1, z1⟩ := hs
  obtain ⟨b, e2, d2, n2, v2, z2⟩ := ht
  have h1 := body_length_le d1 z1 d2 n2 (by rw [v1, v2])
  have h2 := body_length_le d2 z2 d1 n1 (by rw [v1, v2])
  rw [e1, e2, List.length_append, List.length_append]
  omega

theorem print_decimal (t : IType) (ht : IsCxxType t) (n : Int) (hn : InRange t n) : Decimal n (printDecimal t n 0 false false false) := by
  obtain ⟨body, h⟩ := c16_print_is_decimal t ht n hn false false
  exact ⟨body, h⟩

theorem readOne_written {writes : α → Text → Prop} {read : Text → Option α} (hr : ∀ v t, writes v t → read t = some v) {x : Option α} {a : Option Attr}
    (h : Written writes x a) : readOne read a = x := by
  rcases h with ⟨rfl, rfl⟩ | ⟨v, t, rfl, rfl, h⟩
  · rfl
  · exact hr v t h

theorem mapM_written {read : Text → Option α} : ∀ (vs : List α) (ts : List Text), vs.length = ts.length →
    (∀ (i : Nat) v t, vs[i]? = some v → ts[i]? = some t → read t = some v) → ts.mapM read = some vs
  | [], [], _, _ => rfl
  | [], _ :: _, h, _ => by simp at h
  | _ :: _, [], h, _ => by simp at h
  | v :: vs, t :: ts, hl, h => by
    rw [List.mapM_cons, h 0 v t rfl rfl, mapM_written vs ts (by simpa using hl) (fun i a b ha hb => h (i + 1) a b (by simpa using ha) (by simpa using hb))]
    rfl

theorem readList_written {writes : α → Text → Prop} {read : Text → Option α} (hr : ∀ v t, writes v t → read t = some v) {x : Option (List α)}
    {a : Option Attr} (h : WrittenList writes x a) : readList read a = x := by
  rcases h with ⟨rfl, rfl⟩ | ⟨vs, ts, rfl, rfl, hl, h⟩
  · rfl
  · exact mapM_written vs ts hl fun i v t hv ht => hr v t (h i v t hv ht)

theorem readSize_written {x : Option Nat} {a : Option Attr} (h : Written WritesSize x a) : readSize a = x.map fun n => (n : Int) := by
  rcases h with ⟨rfl, rfl⟩ | ⟨v, t, rfl, rfl, hv, h⟩
  · rfl
  · exact read_decimal ⟨32, false⟩ (Or.inr (Or.inr (Or.inl rfl))) v ⟨by simp [minVal], by simp [maxVal]; omega⟩ t h

/-- The answer for one value. -/
theorem validateOne_iff (k : Kind α) (writes : α → Text → Prop) (le : α → α → Prop) (r : Rules α) (a : Attrs) (v : α)
    (hr : ∀ v t, writes v t → k.read t = some v) (hlt : ∀ x y, k.lt x y = true ↔ ¬ le y x) (hs : ∀ x y, k.same x y = true ↔ x = y)
    (hw : WrittenRules writes r a) : validateOne k a v = true ↔ Keeps le (k.size v) r v := by
  obtain ⟨h1, h2, h3, h4, h5⟩ := hw
  unfold validateOne Keeps
  rw [readOne_written hr h1, readOne_written hr h2, readSize_written h3, readSize_written h4, readList_written hr h5]
  simp only [Bool.and_eq_true, and_assoc]
  refine and_congr ?_ (and_congr ?_ (and_congr ?_ (and_congr ?_ ?_)))
  · cases r.max with
    | none => simp
    | some m =>
      have := hlt m v
      cases hk : k.lt m v <;> simp [hk] at this ⊢ <;> exact this
  · cases r.min with
    | none => simp
    | some m =>
      have := hlt v m
      cases hk : k.lt v m <;> simp [hk] at this ⊢ <;> exact this
  · cases r.minSize with
    | none => simp
    | some m => simp
  · cases r.maxSize with
    | none => simp
    | some m => simp
  · cases r.values with
    | none => simp
    | some l => simp [List.any_eq_true, hs]

theorem textLt_iff : ∀ a b : Text, textLt a b = true ↔ a < b
  | [], [] => by simp [textLt]
  | [], _ :: _ => by simp [textLt]
  | _ :: _, [] => by simp [textLt]
  | a :: s, b :: t => by
    rw [List.cons_lt_cons_iff, textLt]
    by_cases h : a = b
    · rw [if_pos h, textLt_iff s t]
      simp [h]
    · rw [if_neg h]
      simp [h, UInt8.lt_iff_toNat_lt]

theorem every_total (f : Nat → Option Bool) (g : Nat → Bool) : ∀ l : List Nat, (∀ i, i ∈ l → f i = some (g i)) → every f l = some (l.all g)
  | [], _ => rfl
  | i :: l, h => by
    rw [every, h i (by simp), List.all_cons]
    cases hg : g i with
    | true => simp [every_total f g l fun j hj => h j (by simp [hj])]
    | false => simp

theorem loops_total (check : α → Bool) (value : Value α) (g : Nat → Nat → Bool)
    (h : ∀ i j, i < value.loops.1 → j < value.loops.2 → ∃ v, value.at i j = .elem v ∧ check v = g i j) :
    validateLoops false check value = some ((List.range value.loops.1).all fun i => (List.range value.loops.2).all fun j => g i j) := by
  unfold validateLoops
  refine every_total _ _ _ fun i hi => every_total _ _ _ fun j hj => ?_
  obtain ⟨v, hv, hg⟩ := h i j (List.mem_range.1 hi) (List.mem_range.1 hj)
  rw [hv]
  simp [checked, hg]

theorem got_elem (l : List α) (i : Nat) (h : i < l.length) : got l i = .elem l[i] := by
  unfold got
  rw [List.getElem?_eq_getElem h]

/-- The loops visit every element of a scalar, of a vector and of a square matrix. -/
theorem validateLoops_square (check : α → Bool) (value : Value α) (hs : Square value) :
    validateLoops false check value = some ((elements value).all check) := by
  cases value with
  | scalar v =>
    simp [validateLoops, every, Value.loops, Value.at, checked, elements, List.range_succ]
    cases check v <;> rfl
  | vector l =>
    have hg : ∀ j (h : j < l.length), check l[j] = (match l[j]? with | some v => check v | none => true) := fun j h => by
      rw [List.getElem?_eq_getElem h]
    rw [loops_total check (.vector l) (fun _ j => match l[j]? with | some v => check v | none => true) (fun i j hi hj => by
      have hj' : j < l.length := hj
      refine ⟨l[j], ?_, hg j hj'⟩
      simp only [Value.at, if_pos hj', got_elem l j hj'])]
    congr 1
    rw [Bool.eq_iff_iff]
    simp only [List.all_eq_true, List.mem_range, Value.loops, elements]
    constructor
    · intro h v hv
      obtain ⟨j, hj, e⟩ := List.mem_iff_getElem.1 hv
      have := h j hj j hj
      rw [← hg j hj, e] at this
      exact this
    · intro h i _ j hj
      rw [← hg j hj]
      exact h _ (List.getElem_mem hj)
  | block n m l =>
    obtain ⟨rfl, hl⟩ := hs
    have hb : ∀ i j, i < n → j < n → i * n + j < l.length := fun i j hi hj => by
      rw [hl]
      have : (i + 1) * n ≤ n * n := Nat.mul_le_mul_right n hi
      rw [Nat.succ_mul] at this
      omega
    have hg : ∀ k (h : k < l.length), check l[k] = (match l[k]? with | some v => check v | none => true) := fun j h => by
      rw [List.getElem?_eq_getElem h]
    rw [loops_total check (.block n n l) (fun i j => match l[i * n + j]? with | some v => check v | none => true) (fun i j hi hj => by
      have hi' : i < n := hi
      have hj' : j < n := hj
      have hk := hb i j hi' hj'
      refine ⟨l[i * n + j], ?_, hg _ hk⟩
      simp only [Value.at, if_pos hi', if_pos hj', got_elem l _ hk])]
    congr 1
    rw [Bool.eq_iff_iff]
    simp only [List.all_eq_true, List.mem_range, Value.loops, elements]
    constructor
    · intro h v hv
      obtain ⟨k, hk, e⟩ := List.mem_iff_getElem.1 hv
      have hn : 0 < n := by
        rcases Nat.eq_zero_or_pos n with z | z
        · subst z; simp at hl; subst hl; simp at hk
        · exact z
      have h1 : k / n < n := Nat.div_lt_of_lt_mul (by omega)
      have := h (k / n) h1 (k % n) (Nat.mod_lt _ hn)
      rw [show k / n * n + k % n = k by rw [Nat.mul_comm]; exact Nat.div_add_mod k n, ← hg k hk, e] at this
      exact this
    · intro h i hi j hj
      rw [← hg _ (hb i j hi hj)]
      exact h _ (List.getElem_mem _)
  | heap n m l ptr =>
    obtain ⟨rfl, hl, hr⟩ := hs
    have hrow : ∀ i (h : i < l.length), l[i].length = n := fun i h => hr _ (List.getElem_mem h)
    have hD : ∀ i (h : i < l.length), l.getD i [] = l[i] := fun i h => by simp [List.getD, List.getElem?_eq_getElem h]
    have hg : ∀ i j (h : i < l.length) (h' : j < l[i].length), check l[i][j] = (match (l.getD i [])[j]? with | some v => check v | none => true) :=
      fun i j h h' => by rw [hD i h, List.getElem?_eq_getElem h']
    rw [loops_total check (.heap n n l ptr) (fun i j => match (l.getD i [])[j]? with | some v => check v | none => true) (fun i j hi hj => by
      have hi' : i < n := hi
      have hj' : j < n := hj
      have hi2 : i < l.length := by omega
      have hj2 : j < l[i].length := by rw [hrow i hi2]; exact hj'
      refine ⟨l[i][j], ?_, hg i j hi2 hj2⟩
      simp only [Value.at, if_pos hi', if_pos hj', hD i hi2, got_elem l[i] j hj2])]
    congr 1
    rw [Bool.eq_iff_iff]
    simp only [List.all_eq_true, List.mem_range, Value.loops, elements, List.mem_flatten]
    constructor
    · rintro h v ⟨row, hrow', hv⟩
      obtain ⟨i, hi, rfl⟩ := List.mem_iff_getElem.1 hrow'
      obtain ⟨j, hj, rfl⟩ := List.mem_iff_getElem.1 hv
      have := h i (by omega) j (by rw [hrow i hi] at hj; exact hj)
      rw [← hg i j hi hj] at this
      exact this
    · intro h i hi j hj
      have hi2 : i < l.length := by omega
      have hj2 : j < l[i].length := by rw [hrow i hi2]; exact hj
      rw [← hg i j hi2 hj2]
      exact h _ ⟨l[i], List.getElem_mem hi2, List.getElem_mem hj2⟩

theorem all_const (b : Bool) : ∀ n, (List.range (n + 1)).all (fun _ => b) = b
  | 0 => by simp [List.range_succ]
  | n + 1 => by rw [List.range_succ, List.all_append, all_const b n]; simp

theorem loops_first (check : α → Bool) (v : α) (l : List α) : validateLoops true check (.vector (v :: l)) = some (check v) := by
  unfold validateLoops
  refine Eq.trans (every_total _ (fun _ => (List.range (l.length + 1)).all fun _ => check v) _ fun i _ => every_total _ _ _ fun j hj => ?_) ?_
  · have hj' : j < (v :: l).length := List.mem_range.1 hj
    have : (Value.vector (v :: l)).at i j = .elem (v :: l)[j] := by
      simp only [Value.at, if_pos hj', got_elem _ _ hj']
    rw [this]
    rfl
  · rw [all_const]
    show some ((List.range (l.length + 1)).all fun _ => check v) = _
    rw [all_const]

/-- The same for a square matrix in one block. -/
theorem loops_first_block (check : α → Bool) (v : α) (l : List α) (n : Nat) (hl : (v :: l).length = (n + 1) * (n + 1)) :
    validateLoops true check (.block (n + 1) (n + 1) (v :: l)) = some (check v) := by
  unfold validateLoops
  refine Eq.trans (every_total _ (fun _ => (List.range (n + 1)).all fun _ => check v) _ fun i hi => every_total _ _ _ fun j hj => ?_) ?_
  · have hi' : i < n + 1 := List.mem_range.1 hi
    have hj' : j < n + 1 := List.mem_range.1 hj
    have hlt : i * (n + 1) + j < (v :: l).length := by
      have : i * (n + 1) ≤ n * (n + 1) := Nat.mul_le_mul_right _ (by omega)
      rw [hl, Nat.add_one_mul n (n + 1)]
      omega
    have : (Value.block (n + 1) (n + 1) (v :: l)).at i j = .elem (v :: l)[i * (n + 1) + j] := by
      simp only [Value.at, if_pos hi', if_pos hj', got_elem _ _ hlt]
    rw [this]
    rfl
  · rw [all_const]
    show some ((List.range (n + 1)).all fun _ => check v) = _
    rw [all_const]

end Verif.Validate
