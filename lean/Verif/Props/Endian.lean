import Verif.Spec.Endian
/-!
# C97: numbers in big and little endian order
-/
set_option linter.unusedSimpArgs false
namespace Verif.Props.Endian
open Verif.Endian Verif.Spec.Endian

private theorem load_eq (m : Mem) (n : Nat) : ∀ a, load m a n = bytes m a n := by
  induction n with
  | zero => intro a; rfl
  | succ n ih =>
    intro a
    rw [load, ih, bytes, bytes, List.range_succ_eq_map]
    simp [Function.comp_def, Nat.add_assoc, Nat.add_comm 1]

private theorem load_len (m : Mem) (n : Nat) : ∀ a, (load m a n).length = n := by
  induction n with
  | zero => intro a; rfl
  | succ n ih => intro a; simp [load, ih]

private theorem load_congr {m m' : Mem} (n : Nat) : ∀ a, (∀ x, a ≤ x → x < a + n → m x = m' x) → load m a n = load m' a n := by
  induction n with
  | zero => intro a _; rfl
  | succ n ih =>
    intro a h
    rw [load, load, h a (Nat.le_refl _) (by omega), ih (a + 1) (fun x h1 h2 => h x (by omega) (by omega))]

private theorem store_out (bs : List Nat) : ∀ (m : Mem) (a x : Nat), x < a ∨ a + bs.length ≤ x → store m a bs x = m x := by
  induction bs with
  | nil => intro m a x _; rfl
  | cons b t ih =>
    intro m a x h
    simp only [List.length_cons] at h
    rw [store, ih _ _ _ (by omega), if_neg (by omega)]

private theorem load_store (bs : List Nat) : ∀ (m : Mem) (a : Nat), load (store m a bs) a bs.length = bs := by
  induction bs with
  | nil => intro m a; rfl
  | cons b t ih =>
    intro m a
    rw [store, List.length_cons, load, ih, store_out _ _ _ _ (by omega), if_pos rfl]

private theorem swap64_eq (m : Mem) (x : Nat) : swap64x m x = swap64b m x := by
  funext y
  simp only [swap64x, swap32, swap64b, load, store, List.reverse_cons, List.reverse_nil, List.nil_append, List.cons_append]
  grind

/-- Every swap reverses the bytes and leaves the rest. -/
private theorem swap_eq (a : Arch) (t : Ty) (m : Mem) (x : Nat) : swap a t m x = store m x (load m x t.size).reverse := by
  cases t <;> cases a <;> simp only [swap, Ty.size, swap16, swap32, swap64_eq, swap64b]

private theorem size_eq (t : Ty) : t.size = width t := by cases t <;> rfl

private theorem big_eq (bs : List Nat) : big bs = little bs.reverse := by
  rw [big, little, List.foldr_reverse]
  congr 1
  funext acc b; omega

private theorem little_eq (bs : List Nat) : little bs = big bs.reverse := by rw [big_eq, List.reverse_reverse]

private theorem swapped (m : Mem) (x : Nat) (t : Ty) :
    bytes (store m x (load m x t.size).reverse) x (width t) = (bytes m x (width t)).reverse ∧
      SameBut m (store m x (load m x t.size).reverse) x (width t) := by
  have hl := load_len m t.size x
  constructor
  · rw [← load_eq, ← load_eq, ← size_eq]
    have := load_store (load m x t.size).reverse m x
    rwa [List.length_reverse, hl] at this
  · intro y hy
    rw [← size_eq] at hy
    exact store_out _ _ _ _ (by rwa [List.length_reverse, hl])

private theorem same_self (m : Mem) (x n : Nat) : SameBut m m x n := fun _ _ => rfl

/-- On every processor, for every type and value: after `ToBigEndian` the bytes of the variable are its value, most significant first, and
no other byte changes. -/
theorem c97_to_big (a : Arch) (t : Ty) (m : Mem) (x : Nat) :
    big (bytes (toBig a t m x) x (width t)) = native a (bytes m x (width t)) ∧ SameBut m (toBig a t m x) x (width t) := by
  obtain ⟨h1, h2⟩ := swapped m x t
  cases a
  · simp only [toBig, swap_eq, native]; exact ⟨by rw [h1, little_eq], h2⟩
  · simp only [toBig, swap_eq, native]; exact ⟨by rw [h1, little_eq], h2⟩
  · exact ⟨rfl, same_self _ _ _⟩

/-- After `ToLittleEndian`, least significant first. -/
theorem c97_to_little (a : Arch) (t : Ty) (m : Mem) (x : Nat) :
    little (bytes (toLittle a t m x) x (width t)) = native a (bytes m x (width t)) ∧ SameBut m (toLittle a t m x) x (width t) := by
  obtain ⟨h1, h2⟩ := swapped m x t
  cases a
  · exact ⟨rfl, same_self _ _ _⟩
  · exact ⟨rfl, same_self _ _ _⟩
  · simp only [toLittle, swap_eq, native]; exact ⟨by rw [h1, big_eq], h2⟩

/-- `FromLittleEndian` gives the number that the bytes are, least significant first. -/
theorem c97_from_little (a : Arch) (t : Ty) (m : Mem) (x : Nat) :
    native a (bytes (fromLittle a t m x) x (width t)) = little (bytes m x (width t)) ∧ SameBut m (fromLittle a t m x) x (width t) := by
  obtain ⟨h1, h2⟩ := swapped m x t
  cases a
  · exact ⟨rfl, same_self _ _ _⟩
  · exact ⟨rfl, same_self _ _ _⟩
  · simp only [fromLittle, swap_eq, native]; exact ⟨by rw [h1, little_eq], h2⟩

/-- `FromBigEndian` gives the number that the bytes are, most significant first, on x86 and arm, and for `int16` on ppc. -/
theorem c97_from_big_partial (a : Arch) (t : Ty) (m : Mem) (x : Nat) (h : a ≠ .ppc ∨ t = .i16) :
    native a (bytes (fromBig a t m x) x (width t)) = big (bytes m x (width t)) ∧ SameBut m (fromBig a t m x) x (width t) := by
  obtain ⟨h1, h2⟩ := swapped m x t
  cases a
  · simp only [fromBig, swap_eq, native]; exact ⟨by rw [h1, big_eq], h2⟩
  · simp only [fromBig, swap_eq, native]; exact ⟨by rw [h1, big_eq], h2⟩
  · rcases h with h | h
    · exact absurd rfl h
    · subst h; exact ⟨rfl, same_self _ _ _⟩

/-- **Disagreement.** On ppc, for every other type, `FromBigEndian` reverses bytes that are in the order of the processor already: the
number is the one of the wrong order, and `ToBigEndian` followed by `FromBigEndian` does not give the number back. -/
theorem c97_from_big_fails (t : Ty) (ht : t ≠ .i16) (m : Mem) (x : Nat) :
    native .ppc (bytes (fromBig .ppc t m x) x (width t)) = little (bytes m x (width t)) ∧
    native .ppc (bytes (fromBig .ppc t (toBig .ppc t m x) x) x (width t)) = little (bytes m x (width t)) ∧
    ∃ m', native .ppc (bytes (fromBig .ppc t (toBig .ppc t m' x) x) x (width t)) ≠ native .ppc (bytes m' x (width t)) := by
  have key : ∀ m, native .ppc (bytes (fromBig .ppc t m x) x (width t)) = little (bytes m x (width t)) := by
    intro m
    obtain ⟨h1, _⟩ := swapped m x t
    cases t <;> first | exact absurd rfl ht | (simp only [fromBig, swap_eq, native, Ty.size, width] at h1 ⊢; rw [h1, little_eq])
  refine ⟨key m, key m, fun y => if y = x then 1 else 0, ?_⟩
  rw [key]
  simp only [toBig, native]
  cases t <;> simp [width, bytes, List.range_succ_eq_map, little, big]

/-- On x86 and arm the value comes back, in both orders. -/
theorem c97_round_partial (a : Arch) (h : a ≠ .ppc) (t : Ty) (m : Mem) (x : Nat) :
    native a (bytes (fromBig a t (toBig a t m x) x) x (width t)) = native a (bytes m x (width t)) ∧
    native a (bytes (fromLittle a t (toLittle a t m x) x) x (width t)) = native a (bytes m x (width t)) := by
  constructor
  · rw [(c97_from_big_partial a t _ x (.inl h)).1, (c97_to_big a t m x).1]
  · rw [(c97_from_little a t _ x).1, (c97_to_little a t m x).1]

/-! ## Copies -/

/-- What one element of a copy does. -/
private def Elem (one : Mem → Nat → Nat → Mem) (w : Nat) (f : List Nat → List Nat) : Prop :=
  (∀ bs, (f bs).length = bs.length) ∧ ∀ m d s, one m d s = store m d (f (load m s w))

private theorem up_spec {one : Mem → Nat → Nat → Mem} {w : Nat} {f : List Nat → List Nat} (h : Elem one w f) (n : Nat) :
    ∀ (m : Mem) (d s : Nat), d ≤ s ∨ s + w * n ≤ d →
      (∀ i, i < n → load (upLoop one w n m d s) (d + w * i) w = f (load m (s + w * i) w)) ∧
      (∀ x, x < d ∨ d + w * n ≤ x → upLoop one w n m d s x = m x) := by
  obtain ⟨hf, h1⟩ := h
  induction n with
  | zero => intro m d s _; exact ⟨fun i hi => absurd hi (Nat.not_lt_zero i), fun x _ => rfl⟩
  | succ n ih =>
    intro m d s hd
    have hmul : w * (n + 1) = w * n + w := Nat.mul_succ w n
    have hlen : (f (load m s w)).length = w := by rw [hf, load_len]
    obtain ⟨g1, g2⟩ := ih (one m d s) (d + w) (s + w) (by omega)
    simp only [upLoop]
    constructor
    · intro i hi
      cases i with
      | zero =>
        have : load (upLoop one w n (one m d s) (d + w) (s + w)) d w = load (one m d s) d w :=
          load_congr w d (fun x _ h2 => g2 x (.inl h2))
        simp only [Nat.mul_zero, Nat.add_zero]
        rw [this, h1]
        have h := load_store (f (load m s w)) m d
        rwa [hlen] at h
      | succ i =>
        have hmi : w * (i + 1) = w * i + w := Nat.mul_succ w i
        have hle : w * i + w ≤ w * n := by
          rw [← Nat.mul_succ]; exact Nat.mul_le_mul_left w (by omega)
        have := g1 i (by omega)
        rw [show d + w * (i + 1) = d + w + w * i from by omega, this]
        congr 1
        rw [show s + w * (i + 1) = s + w + w * i from by omega]
        apply load_congr
        intro x h2 h3
        rw [h1]
        exact store_out _ _ _ _ (by rw [hlen]; omega)
    · intro x hx
      rw [g2 x (by omega), h1]
      exact store_out _ _ _ _ (by rw [hlen]; omega)

private theorem down_spec {one : Mem → Nat → Nat → Mem} {w : Nat} {f : List Nat → List Nat} (h : Elem one w f) (n : Nat) :
    ∀ (m : Mem) (d s : Nat), s ≤ d ∨ d + w * n ≤ s →
      (∀ i, i < n → load (downLoop one w n m d s) (d + w * i) w = f (load m (s + w * i) w)) ∧
      (∀ x, x < d ∨ d + w * n ≤ x → downLoop one w n m d s x = m x) := by
  obtain ⟨hf, h1⟩ := h
  induction n with
  | zero => intro m d s _; exact ⟨fun i hi => absurd hi (Nat.not_lt_zero i), fun x _ => rfl⟩
  | succ n ih =>
    intro m d s hd
    have hmul : w * (n + 1) = w * n + w := Nat.mul_succ w n
    have hlen : (f (load m (s + w * n) w)).length = w := by rw [hf, load_len]
    obtain ⟨g1, g2⟩ := ih (one m (d + w * n) (s + w * n)) d s (by omega)
    simp only [downLoop]
    constructor
    · intro i hi
      by_cases hin : i = n
      · subst hin
        have : load (downLoop one w i (one m (d + w * i) (s + w * i)) d s) (d + w * i) w = load (one m (d + w * i) (s + w * i)) (d + w * i) w :=
          load_congr w _ (fun x h2 _ => g2 x (.inr h2))
        rw [this, h1]
        have h := load_store (f (load m (s + w * i) w)) m (d + w * i)
        rwa [hlen] at h
      · have hle : w * i + w ≤ w * n := by
          rw [← Nat.mul_succ]; exact Nat.mul_le_mul_left w (by omega)
        rw [g1 i (by omega)]
        congr 1
        apply load_congr
        intro x h2 h3
        rw [h1]
        exact store_out _ _ _ _ (by rw [hlen]; omega)
    · intro x hx
      rw [g2 x (by omega), h1]
      exact store_out _ _ _ _ (by rw [hlen]; omega)

private theorem elem_swap (w : Nat) : Elem (oneSwap w) w List.reverse := ⟨fun _ => List.length_reverse, fun _ _ _ => rfl⟩

private theorem store_store (bs cs : List Nat) (h : bs.length = cs.length) (m : Mem) (a : Nat) : store (store m a bs) a cs = store m a cs := by
  funext x
  by_cases hx : x < a ∨ a + cs.length ≤ x
  · rw [store_out _ _ _ _ hx, store_out _ _ _ _ (by omega), store_out _ _ _ _ hx]
  · have e : load (store (store m a bs) a cs) a cs.length = load (store m a cs) a cs.length := by rw [load_store, load_store]
    rw [load_eq, load_eq, bytes, bytes] at e
    have := List.map_inj_left.mp e (x - a) (by rw [List.mem_range]; omega)
    rwa [show a + (x - a) = x from by omega] at this

private theorem elem_swap64 : Elem oneSwap64x 8 List.reverse := by
  refine ⟨fun _ => List.length_reverse, fun m d s => ?_⟩
  have hl := load_len m 8 s
  have h := load_store (load m s 8) m d
  rw [hl] at h
  rw [oneSwap64x, swap64_eq, swap64b, h, store_store _ _ (by simp)]

private theorem elem_plain (w : Nat) : Elem (fun m d s => store m d (load m s w)) w id := ⟨fun _ => rfl, fun _ _ _ => rfl⟩

/-- `d` and `s` are the same place, or the `k` bytes at each are apart. -/
def Apart (d s k : Nat) : Prop := d = s ∨ d + k ≤ s ∨ s + k ≤ d

private theorem swap_spec (a : Arch) (t : Ty) (n : Nat) (m : Mem) (d s : Nat) (h : Apart d s (width t * n)) :
    (∀ i, i < n → bytes (copySwap a t n m d s) (d + width t * i) (width t) = (bytes m (s + width t * i) (width t)).reverse) ∧
    SameBut m (copySwap a t n m d s) d (width t * n) := by
  simp only [← size_eq, ← load_eq, SameBut] at h ⊢
  unfold Apart at h
  cases a
  · simp only [copySwap]
    by_cases h8 : t.size = 8
    · rw [if_pos h8]; rw [h8] at h ⊢
      exact up_spec elem_swap64 n m d s (by omega)
    · rw [if_neg h8]; exact up_spec (elem_swap t.size) n m d s (by omega)
  · exact down_spec (elem_swap t.size) n m d s (by omega)
  · exact down_spec (elem_swap t.size) n m d s (by omega)

private theorem load_part (m : Mem) (w : Nat) : ∀ (n a i : Nat), i + w ≤ n → ((load m a n).drop i).take w = load m (a + i) w := by
  intro n a i h
  rw [load_eq, load_eq, bytes, bytes]
  apply List.ext_getElem
  · simp; omega
  · intro j h1 h2
    simp [Nat.add_assoc]

private theorem plain_spec (a : Arch) (t : Ty) (n : Nat) (m : Mem) (d s : Nat) (h : Apart d s (width t * n)) :
    (∀ i, i < n → bytes (copyPlain a t n m d s) (d + width t * i) (width t) = bytes m (s + width t * i) (width t)) ∧
    SameBut m (copyPlain a t n m d s) d (width t * n) := by
  simp only [← size_eq, ← load_eq, SameBut] at h ⊢
  unfold Apart at h
  have whole : (∀ i, i < n → load (store m d (load m s (t.size * n))) (d + t.size * i) t.size = load m (s + t.size * i) t.size) ∧
      ∀ x, x < d ∨ d + t.size * n ≤ x → store m d (load m s (t.size * n)) x = m x := by
    have hl := load_len m (t.size * n) s
    refine ⟨fun i hi => ?_, fun x hx => store_out _ _ _ _ (by rwa [hl])⟩
    have hle : t.size * i + t.size ≤ t.size * n := by
      rw [← Nat.mul_succ]; exact Nat.mul_le_mul_left _ (by omega)
    have e := load_store (load m s (t.size * n)) m d
    rw [hl] at e
    rw [← load_part _ _ (t.size * n) d _ hle, e, load_part _ _ _ _ _ hle]
  cases a
  · exact up_spec (elem_plain t.size) n m d s (by omega)
  · exact whole
  · exact whole

/-- **C97.** Copies to and from big endian order: for any number of elements, on every processor, whether the copy is in place or elsewhere, each
element of the destination, most significant byte first, is the element of the source for the processor, and the other way around; no
byte outside the destination changes. -/
theorem c97_copy_big (a : Arch) (t : Ty) (n : Nat) (m : Mem) (d s : Nat) (h : Apart d s (width t * n)) :
    (∀ i, i < n → big (bytes (copyBig a t n m d s) (d + width t * i) (width t)) = native a (bytes m (s + width t * i) (width t)) ∧
      native a (bytes (copyBig a t n m d s) (d + width t * i) (width t)) = big (bytes m (s + width t * i) (width t))) ∧
    SameBut m (copyBig a t n m d s) d (width t * n) := by
  cases a
  · obtain ⟨h1, h2⟩ := swap_spec .x86 t n m d s h
    exact ⟨fun i hi => by simp only [copyBig, native, h1 i hi]; exact ⟨(little_eq _).symm, (big_eq _).symm⟩, h2⟩
  · obtain ⟨h1, h2⟩ := swap_spec .arm t n m d s h
    exact ⟨fun i hi => by simp only [copyBig, native, h1 i hi]; exact ⟨(little_eq _).symm, (big_eq _).symm⟩, h2⟩
  · obtain ⟨h1, h2⟩ := plain_spec .ppc t n m d s h
    exact ⟨fun i hi => by simp only [copyBig, native, h1 i hi]; exact ⟨trivial, trivial⟩, h2⟩

/-- **C97.** The same for little endian order. -/
theorem c97_copy_little (a : Arch) (t : Ty) (n : Nat) (m : Mem) (d s : Nat) (h : Apart d s (width t * n)) :
    (∀ i, i < n → little (bytes (copyLittle a t n m d s) (d + width t * i) (width t)) = native a (bytes m (s + width t * i) (width t)) ∧
      native a (bytes (copyLittle a t n m d s) (d + width t * i) (width t)) = little (bytes m (s + width t * i) (width t))) ∧
    SameBut m (copyLittle a t n m d s) d (width t * n) := by
  cases a
  · obtain ⟨h1, h2⟩ := plain_spec .x86 t n m d s h
    exact ⟨fun i hi => by simp only [copyLittle, native, h1 i hi]; exact ⟨trivial, trivial⟩, h2⟩
  · obtain ⟨h1, h2⟩ := plain_spec .arm t n m d s h
    exact ⟨fun i hi => by simp only [copyLittle, native, h1 i hi]; exact ⟨trivial, trivial⟩, h2⟩
  · obtain ⟨h1, h2⟩ := swap_spec .ppc t n m d s h
    exact ⟨fun i hi => by simp only [copyLittle, native, h1 i hi]; exact ⟨(big_eq _).symm, (little_eq _).symm⟩, h2⟩

/-- **Disagreement.** Where the two overlap the copies do not agree: shifted up by one element, the copy of x86 repeats the first element, that of arm
does what it says; shifted down it is the other way around. -/
theorem c97_overlap_fails :
    bytes (copyBig .x86 .u16 2 (fun x => x) 2 0) 4 2 = [0, 1] ∧ bytes (copyBig .arm .u16 2 (fun x => x) 2 0) 4 2 = [3, 2] ∧
    bytes (copyBig .arm .u16 2 (fun x => x) 0 2) 0 2 = [4, 5] ∧ bytes (copyBig .x86 .u16 2 (fun x => x) 0 2) 0 2 = [3, 2] := by decide

/-- **C97.** `Type` tells the order of the processor. -/
theorem c97_type (a : Arch) (m : Mem) (x : Nat) : typeIsLittle a (decide (a = .ppc)) m x = true ↔ a ≠ .ppc := by
  cases a
  · have := load_store [0xBB, 0xAA] m x
    simp only [List.length_cons, List.length_nil, Nat.zero_add] at this
    simp [typeIsLittle, toLittle, this]
  · have := load_store [0xBB, 0xAA] m x
    simp only [List.length_cons, List.length_nil, Nat.zero_add] at this
    simp [typeIsLittle, toLittle, this]
  · have h1 := load_store [0xAA, 0xBB] m x
    have h2 := load_store [0xBB, 0xAA] (store m x [0xAA, 0xBB]) x
    simp only [List.length_cons, List.length_nil, Nat.zero_add] at h1 h2
    simp [typeIsLittle, toLittle, swap_eq, Ty.size, h1, h2]

example : bytes (toBig .x86 .u32 (fun x => 10 + x) 1) 1 4 = [14, 13, 12, 11] ∧ native .x86 [11, 12, 13, 14] = 235736075 ∧
    big [14, 13, 12, 11] = 235736075 := by decide

example : Apart 100 0 (width .f64 * 3) := by unfold Apart; right; right; decide

end Verif.Props.Endian
