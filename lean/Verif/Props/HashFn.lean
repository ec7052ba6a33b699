import Verif.Model.HashFn
import Verif.Spec.HashFn
/-! ## C105: the hash functions -/
set_option linter.unusedSimpArgs false
namespace Verif.HashFn
open Verif.Spec.HashFn

private theorem size_eq {w : Nat} (step : BitVec w → BitVec 8 → BitVec w) : ∀ (l rest : List (BitVec 8)) (h : BitVec w),
    sizeLoop step l.length h (l ++ rest) = some (l.foldl step h)
  | [], _, _ => by simp [sizeLoop]
  | b :: l, rest, h => by rw [List.length_cons, List.cons_append, sizeLoop, size_eq step l rest, List.foldl_cons]

private theorem text_eq {w : Nat} (step : BitVec w → BitVec 8 → BitVec w) : ∀ (l rest : List (BitVec 8)) (h : BitVec w), 0 ∉ l →
    textLoop step h (l ++ 0 :: rest) = some (l.foldl step h)
  | [], _, _, _ => rfl
  | b :: l, rest, h, hz => by
    have hb : b ≠ 0 := fun e => hz (by simp [e])
    rw [List.cons_append, textLoop, if_pos hb, text_eq step l rest _ (fun e => hz (List.mem_cons_of_mem _ e)), List.foldl_cons]

/-- The bytes that are hashed: those of the size, or of the text. -/
private theorem compute_eq {w : Nat} (start : BitVec w) (step : BitVec w → BitVec 8 → BitVec w) (l rest : List (BitVec 8)) :
    (l ≠ [] → compute start step (some (l ++ rest)) l.length = some (l.foldl step start)) ∧
    (0 ∉ l → compute start step (some (l ++ 0 :: rest)) 0 = some (l.foldl step start)) := by
  constructor
  · intro h
    have : l.length ≠ 0 := by simpa using h
    simp only [compute, if_neg this, size_eq]
  · intro h
    simp only [compute, if_pos, text_eq step l rest start h]

private theorem zip_shift (b : BitVec 8) : ∀ (l : List (BitVec 8)) (k : Nat),
    (((l ++ [b]).zipIdx k).map fun x => x.1.toNat * 33 ^ x.2).sum = ((l.zipIdx k).map fun x => x.1.toNat * 33 ^ x.2).sum + b.toNat * 33 ^ (k + l.length)
  | [], k => by simp
  | a :: l, k => by
    rw [List.cons_append, List.zipIdx_cons, List.zipIdx_cons, List.map_cons, List.map_cons, List.sum_cons, List.sum_cons, zip_shift b l (k + 1), List.length_cons,
      show k + 1 + l.length = k + (l.length + 1) by omega]
    omega

private theorem djb_cons (acc : Nat) (l : List (BitVec 8)) : l.foldl (fun (h : Nat) b => h * 33 + b.toNat) acc =
    acc * 33 ^ l.length + ((l.reverse.zipIdx).map fun x => x.1.toNat * 33 ^ x.2).sum := by
  induction l generalizing acc with
  | nil => simp
  | cons b l ih =>
    rw [List.foldl_cons, ih, List.reverse_cons, zip_shift, List.length_cons, List.length_reverse]
    simp only [Nat.zero_add]
    rw [Nat.pow_succ, Nat.add_mul]
    grind

private theorem djb_mod (w : Nat) (hw : 8 ≤ w) : ∀ (l : List (BitVec 8)) (h : BitVec w) (n : Nat), h.toNat = n % 2 ^ w →
    (l.foldl djbStep h).toNat = l.foldl (fun (h : Nat) b => h * 33 + b.toNat) n % 2 ^ w
  | [], h, n, e => by simpa using e
  | b :: l, h, n, e => by
    rw [List.foldl_cons, List.foldl_cons]
    apply djb_mod w hw l
    have h256 : 256 ≤ 2 ^ w := by
      have := Nat.pow_le_pow_right (n := 2) (by omega) hw
      simpa using this
    have hb : (b.setWidth w).toNat = b.toNat := by
      rw [BitVec.toNat_setWidth, Nat.mod_eq_of_lt (by have := b.isLt; omega)]
    have h33 : (33 : BitVec w).toNat = 33 := by
      show (BitVec.ofNat w 33).toNat = 33
      rw [BitVec.toNat_ofNat, Nat.mod_eq_of_lt (by omega)]
    rw [djbStep, BitVec.toNat_add, BitVec.toNat_mul, hb, h33, e]
    simp [Nat.add_mod, Nat.mul_mod]

/-- **C105.** djb2, of any bytes with their number, and of any text ended by a zero. -/
theorem c105_djb (l rest : List (BitVec 8)) :
    (l ≠ [] → ∃ a b, djb32 (some (l ++ rest)) l.length = some a ∧ a.toNat = djb l % 2 ^ 32 ∧ djb64 (some (l ++ rest)) l.length = some b ∧ b.toNat = djb l % 2 ^ 64) ∧
    (0 ∉ l → ∃ a b, djb32 (some (l ++ 0 :: rest)) 0 = some a ∧ a.toNat = djb l % 2 ^ 32 ∧ djb64 (some (l ++ 0 :: rest)) 0 = some b ∧ b.toNat = djb l % 2 ^ 64) := by
  have h32 : (l.foldl djbStep 5381#32).toNat = djb l % 2 ^ 32 := by rw [djb_mod 32 (by omega) l 5381#32 5381 (by simp), djb_cons, djb]
  have h64 : (l.foldl djbStep 5381#64).toNat = djb l % 2 ^ 64 := by rw [djb_mod 64 (by omega) l 5381#64 5381 (by simp), djb_cons, djb]
  exact ⟨fun h => ⟨_, _, (compute_eq _ _ l rest).1 h, h32, (compute_eq _ _ l rest).1 h, h64⟩,
    fun h => ⟨_, _, (compute_eq _ _ l rest).2 h, h32, (compute_eq _ _ l rest).2 h, h64⟩⟩

private theorem fnv_nat (w p : Nat) (hw : 8 ≤ w) (hp : p < 2 ^ w) : ∀ (l : List (BitVec 8)) (h : BitVec w),
    (l.foldl (fun h (b : BitVec 8) => (h ^^^ b.setWidth w) * BitVec.ofNat w p) h).toNat = fnv w h.toNat p l
  | [], h => rfl
  | b :: l, h => by
    have h256 : 256 ≤ 2 ^ w := by
      have := Nat.pow_le_pow_right (n := 2) (by omega) hw
      simpa using this
    have hb : ((h ^^^ b.setWidth w) * BitVec.ofNat w p).toNat = (h.toNat ^^^ b.toNat) * p % 2 ^ w := by
      rw [BitVec.toNat_mul, BitVec.toNat_xor, BitVec.toNat_setWidth, Nat.mod_eq_of_lt (show b.toNat < 2 ^ w by have := b.isLt; omega), BitVec.toNat_ofNat,
        Nat.mod_eq_of_lt hp]
    rw [List.foldl_cons, fnv_nat w p hw hp l, fnv, fnv, List.foldl_cons, hb]

private theorem step32_eq : fnvStep32 = fun h (b : BitVec 8) => (h ^^^ b.setWidth 32) * BitVec.ofNat 32 16777619 := rfl

private theorem step64_eq : fnvStep64 = fun h (b : BitVec 8) => (h ^^^ b.setWidth 64) * BitVec.ofNat 64 1099511628211 := rfl

private theorem start32 : (0x811c9dc5#32).toNat = 2166136261 := by decide

private theorem start64 : (0xcbf29ce484222325#64).toNat = 14695981039346656037 := by decide

/-- FNV-1a, with the published offsets and primes. -/
theorem c105_fnv (l rest : List (BitVec 8)) :
    (l ≠ [] → ∃ a b, fnv32 (some (l ++ rest)) l.length = some a ∧ a.toNat = fnv 32 2166136261 16777619 l ∧
      fnv64 (some (l ++ rest)) l.length = some b ∧ b.toNat = fnv 64 14695981039346656037 1099511628211 l) ∧
    (0 ∉ l → ∃ a b, fnv32 (some (l ++ 0 :: rest)) 0 = some a ∧ a.toNat = fnv 32 2166136261 16777619 l ∧
      fnv64 (some (l ++ 0 :: rest)) 0 = some b ∧ b.toNat = fnv 64 14695981039346656037 1099511628211 l) := by
  have h32 : (l.foldl fnvStep32 0x811c9dc5#32).toNat = fnv 32 2166136261 16777619 l := by
    rw [step32_eq, fnv_nat 32 _ (by omega) (by decide), start32]
  have h64 : (l.foldl fnvStep64 0xcbf29ce484222325#64).toNat = fnv 64 14695981039346656037 1099511628211 l := by
    rw [step64_eq, fnv_nat 64 _ (by omega) (by decide), start64]
  exact ⟨fun h => ⟨_, _, (compute_eq _ _ l rest).1 h, h32, (compute_eq _ _ l rest).1 h, h64⟩,
    fun h => ⟨_, _, (compute_eq _ _ l rest).2 h, h32, (compute_eq _ _ l rest).2 h, h64⟩⟩

/-- A null pointer has the hash of an empty text. -/
theorem c105_null (size : Nat) (rest : List (BitVec 8)) :
    djb32 none size = djb32 (some (0 :: rest)) 0 ∧ djb64 none size = djb64 (some (0 :: rest)) 0 ∧
    fnv32 none size = fnv32 (some (0 :: rest)) 0 ∧ fnv64 none size = fnv64 (some (0 :: rest)) 0 := by
  simp [djb32, djb64, fnv32, fnv64, compute, textLoop]

private theorem mul_inj {w : Nat} (m i : BitVec w) (h : m * i = 1#w) {a b : BitVec w} (e : a * m = b * m) : a = b := by
  have : a * m * i = b * m * i := by rw [e]
  rwa [BitVec.mul_assoc, BitVec.mul_assoc, h, BitVec.mul_one, BitVec.mul_one] at this

private theorem xor_inj {w : Nat} {a b c : BitVec w} (e : a ^^^ c = b ^^^ c) : a = b := by
  have : a ^^^ c ^^^ c = b ^^^ c ^^^ c := by rw [e]
  rwa [BitVec.xor_assoc, BitVec.xor_assoc, BitVec.xor_self, BitVec.xor_zero, BitVec.xor_zero] at this

private theorem width_inj {w : Nat} (hw : 8 ≤ w) {a b : BitVec 8} (e : a.setWidth w = b.setWidth w) : a = b := by
  apply BitVec.eq_of_toNat_eq
  have h256 : 256 ≤ 2 ^ w := by
    have := Nat.pow_le_pow_right (n := 2) (by omega) hw
    simpa using this
  have := congrArg BitVec.toNat e
  have ha := a.isLt
  have hb := b.isLt
  rwa [BitVec.toNat_setWidth, BitVec.toNat_setWidth, Nat.mod_eq_of_lt (by omega), Nat.mod_eq_of_lt (by omega)] at this

private theorem fold_inj {w : Nat} (step : BitVec w → BitVec 8 → BitVec w) (h1 : ∀ x y b, step x b = step y b → x = y) :
    ∀ (l : List (BitVec 8)) (x y : BitVec w), l.foldl step x = l.foldl step y → x = y
  | [], _, _, e => e
  | b :: l, x, y, e => h1 x y b (fold_inj step h1 l _ _ e)

private theorem one_byte {w : Nat} (start : BitVec w) (step : BitVec w → BitVec 8 → BitVec w) (h1 : ∀ x y b, step x b = step y b → x = y)
    (h2 : ∀ x a b, step x a = step x b → a = b) (x y : List (BitVec 8)) (h : OneByte x y) :
    compute start step (some x) x.length ≠ compute start step (some y) y.length := by
  obtain ⟨p, a, b, s, rfl, rfl, hab⟩ := h
  have e1 := (compute_eq start step (p ++ a :: s) []).1 (by simp)
  have e2 := (compute_eq start step (p ++ b :: s) []).1 (by simp)
  rw [List.append_nil] at e1 e2
  rw [e1, e2]
  intro e
  rw [Option.some_inj, List.foldl_append, List.foldl_append, List.foldl_cons, List.foldl_cons] at e
  exact hab (h2 _ _ _ (fold_inj step h1 s _ _ e))

private theorem add_left {w : Nat} {a b c : BitVec w} (e : c + a = c + b) : a = b := (BitVec.add_right_inj c).mp e

/-- If one byte is changed, every one of the hashes changes. -/
theorem c105_one_byte (x y : List (BitVec 8)) (h : OneByte x y) :
    djb32 (some x) x.length ≠ djb32 (some y) y.length ∧ djb64 (some x) x.length ≠ djb64 (some y) y.length ∧
    fnv32 (some x) x.length ≠ fnv32 (some y) y.length ∧ fnv64 (some x) x.length ≠ fnv64 (some y) y.length := by
  refine ⟨one_byte _ _ ?_ ?_ x y h, one_byte _ _ ?_ ?_ x y h, one_byte _ _ ?_ ?_ x y h, one_byte _ _ ?_ ?_ x y h⟩
  · intro x y b e
    exact mul_inj 33#32 1041204193#32 (by decide) ((BitVec.add_left_inj _).mp e)
  · intro x a b e
    exact width_inj (by omega) (add_left e)
  · intro x y b e
    exact mul_inj 33#64 1117984489315730401#64 (by decide) ((BitVec.add_left_inj _).mp e)
  · intro x a b e
    exact width_inj (by omega) (add_left e)
  · intro x y b e
    exact xor_inj (mul_inj 0x01000193#32 (BitVec.ofNat 32 899433627) (by decide) e)
  · intro x a b e
    have := mul_inj 0x01000193#32 (BitVec.ofNat 32 899433627) (by decide) e
    rw [BitVec.xor_comm x, BitVec.xor_comm x] at this
    exact width_inj (by omega) (xor_inj this)
  · intro x y b e
    exact xor_inj (mul_inj 0x00000100000001B3#64 (BitVec.ofNat 64 14886173955864302971) (by decide) e)
  · intro x a b e
    have := mul_inj 0x00000100000001B3#64 (BitVec.ofNat 64 14886173955864302971) (by decide) e
    rw [BitVec.xor_comm x, BitVec.xor_comm x] at this
    exact width_inj (by omega) (xor_inj this)

/-- **C105 (disagreement).** No bytes of data (a size of zero): the memory is read up to the first zero, after its end if
there is none. -/
theorem c105_empty_fails (l : List (BitVec 8)) (h : 0 ∉ l) :
    djb32 (some l) 0 = none ∧ djb64 (some l) 0 = none ∧ fnv32 (some l) 0 = none ∧ fnv64 (some l) 0 = none ∧
    ∀ b, b ≠ 0 → djb32 (some [b, 0]) 0 ≠ djb32 (some [0]) 0 := by
  have key : ∀ {w : Nat} (step : BitVec w → BitVec 8 → BitVec w) (s : BitVec w), textLoop step s l = none := by
    intro w step
    induction l with
    | nil => intro s; rfl
    | cons b l ih =>
      intro s
      rw [textLoop, if_pos (fun e => h (by simp [e]))]
      exact ih (fun e => h (List.mem_cons_of_mem _ e)) _
  refine ⟨by simp [djb32, compute, key], by simp [djb64, compute, key], by simp [fnv32, compute, key], by simp [fnv64, compute, key], ?_⟩
  intro b hb e
  simp only [djb32, compute, if_true, textLoop, if_pos hb, ne_eq, not_true_eq_false, if_false, Option.some_inj] at e
  have := congrArg BitVec.toNat e
  rw [djbStep, BitVec.toNat_add, BitVec.toNat_mul, BitVec.toNat_setWidth] at this
  have hl := b.isLt
  rw [Nat.mod_eq_of_lt (show b.toNat < 2 ^ 32 by omega)] at this
  have h3 : (5381#32).toNat * (33 : BitVec 32).toNat % 2 ^ 32 = 177573 := by decide
  rw [h3, Nat.mod_eq_of_lt (by omega)] at this
  have h4 : (5381#32).toNat = 5381 := rfl
  omega

/-- A concrete case: the hashes of `"ab"`. -/
example : OneByte [97, 98, 0] [97, 99, 0] ∧ djb [97, 98] = 5863208 ∧ fnv 32 2166136261 16777619 [97] = 0xe40c292c := by
  refine ⟨⟨[97], 98, 99, [0], rfl, rfl, by decide⟩, by decide, by decide⟩

private theorem size_none {w : Nat} (step : BitVec w → BitVec 8 → BitVec w) : ∀ (l : List (BitVec 8)) (n : Nat) (h : BitVec w), l.length < n → sizeLoop step n h l = none
  | [], n + 1, _, _ => rfl
  | b :: l, n + 1, h, hl => by rw [sizeLoop]; exact size_none step l n _ (by simpa using hl)

private theorem text_none {w : Nat} (step : BitVec w → BitVec 8 → BitVec w) : ∀ (l : List (BitVec 8)) (h : BitVec w), 0 ∉ l → textLoop step h l = none
  | [], _, _ => rfl
  | b :: l, h, hz => by
    have hb : b ≠ 0 := fun e => hz (by simp [e])
    rw [textLoop, if_pos hb]
    exact text_none step l _ (fun e => hz (List.mem_cons_of_mem _ e))

/-- A size greater than the memory, or a text without its zero, is read past the end: the functions do not know where it is. -/
theorem c105_outside (l : List (BitVec 8)) (size : Nat) (h : l.length < size ∨ (size = 0 ∧ 0 ∉ l)) :
    djb32 (some l) size = none ∧ djb64 (some l) size = none ∧ fnv32 (some l) size = none ∧ fnv64 (some l) size = none := by
  rcases h with h | ⟨rfl, h⟩
  · have : size ≠ 0 := by omega
    simp [djb32, djb64, fnv32, fnv64, compute, this, size_none _ l size _ h]
  · simp [djb32, djb64, fnv32, fnv64, compute, text_none _ l _ h]

example : djb32 (some [65, 66]) 3 = none := (c105_outside _ _ (.inl (by decide))).1

end Verif.HashFn
