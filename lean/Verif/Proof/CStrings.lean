import Verif.Model.CStrings
import Verif.Spec.CStrings
namespace Verif.CStrings
open Verif.Spec.CStrings

/-- The bytes of a text. -/
def Bytes (s : List Nat) : Prop := ∀ c, c ∈ s → 0 < c ∧ c < 256

theorem Bytes.tail {a : Nat} {s : List Nat} (h : Bytes (a :: s)) : Bytes s := fun c hc => h c (List.mem_cons_of_mem _ hc)
theorem Bytes.head {a : Nat} {s : List Nat} (h : Bytes (a :: s)) : 0 < a ∧ a < 256 := h a (by simp)
theorem Ascii.tail {a : Nat} {s : List Nat} (h : Ascii (a :: s)) : Ascii s := fun c hc => h c (List.mem_cons_of_mem _ hc)

theorem signed_inj {a b : Nat} (ha : a < 256) (hb : b < 256) (h : signed a = signed b) : a = b := by
  unfold signed at h; split at h <;> split at h <;> omega

theorem signed_ascii {a : Nat} (h : a < 128) : signed a = a := by simp [signed, h]

theorem length_eq : ∀ (s r : List Nat), Bytes s → length (s ++ 0 :: r) = some s.length
  | [], r, _ => by simp [length]
  | a :: s, r, h => by
    have := h.head
    rw [List.cons_append, length, if_pos (by omega), length_eq s r h.tail]; rfl

/-- The loop of a comparison, with a key. -/
def cmpKey (key : Nat → Int) : Nat → List Nat → List Nat → Option Nat
  | 0, _, _ => some 0
  | n + 1, a :: p, b :: q =>
    if key a > key b then some 2 else if key a < key b then some 1 else if a = 0 ∧ b = 0 then some 0 else cmpKey key n p q
  | _ + 1, _, _ => none

theorem compareN_key : ∀ (n : Nat) (p q : List Nat), compareN n p q = cmpKey signed n p q
  | 0, p, q => by simp [compareN, cmpKey]
  | n + 1, [], q => by simp [compareN, cmpKey]
  | n + 1, _ :: _, [] => by simp [compareN, cmpKey]
  | n + 1, a :: p, b :: q => by rw [compareN, cmpKey, compareN_key n p q]

theorem noCase_key : ∀ (n : Nat) (p q : List Nat), compareNoCaseN n p q = cmpKey (fun c => (small c : Int)) n p q
  | 0, p, q => by simp [compareNoCaseN, cmpKey]
  | n + 1, [], q => by simp [compareNoCaseN, cmpKey]
  | n + 1, _ :: _, [] => by simp [compareNoCaseN, cmpKey]
  | n + 1, a :: p, b :: q => by
    rw [compareNoCaseN, cmpKey, noCase_key n p q]
    simp only [gt_iff_lt, Int.ofNat_lt]

theorem compare_key : ∀ (p q : List Nat) (n : Nat), p.length ≤ n → compareAll p q = none ∨ compareAll p q = cmpKey signed n p q
  | [], q, n, _ => by simp [compareAll]
  | _ :: _, [], n, _ => by simp [compareAll]
  | a :: p, b :: q, 0, h => by simp at h
  | a :: p, b :: q, n + 1, h => by
    rw [compareAll, cmpKey]
    rcases compare_key p q n (by simpa using h) with e | e <;> (repeat' split) <;> simp_all

theorem compare_some : ∀ (s t r u : List Nat), Bytes s → Bytes t → compareAll (s ++ 0 :: r) (t ++ 0 :: u) ≠ none
  | [], [], r, u, _, _ => by simp [compareAll]
  | [], b :: t, r, u, _, hb => by
    have := hb.head
    simp only [List.nil_append, List.cons_append, compareAll]
    (repeat' split) <;> simp
    rename_i h1 h2 h3
    have := signed_inj (a := 0) (b := b) (by omega) (by omega) (by omega)
    omega
  | a :: s, [], r, u, ha, _ => by
    have := ha.head
    simp only [List.nil_append, List.cons_append, compareAll]
    (repeat' split) <;> simp
    rename_i h1 h2 h3
    have := signed_inj (a := a) (b := 0) (by omega) (by omega) (by omega)
    omega
  | a :: s, b :: t, r, u, ha, hb => by
    simp only [List.cons_append, compareAll]
    (repeat' split) <;> first | exact compare_some s t r u ha.tail hb.tail | simp

/-- The value of a comparison with a key that tells the end from the rest. -/
theorem cmpKey_zero (key : Nat → Int) (h0 : ∀ c, 0 < c → c < 256 → key c ≠ key 0) :
    ∀ (n : Nat) (s t r u : List Nat), Bytes s → Bytes t →
      (∃ v, cmpKey key n (s ++ 0 :: r) (t ++ 0 :: u) = some v ∧ v ≤ 2 ∧ (v = 0 ↔ (s.take n).map key = (t.take n).map key))
  | 0, s, t, r, u, _, _ => ⟨0, by simp [cmpKey]⟩
  | n + 1, [], [], r, u, _, _ => ⟨0, by simp [cmpKey]⟩
  | n + 1, [], b :: t, r, u, _, hb => by
    have hk := h0 b hb.head.1 hb.head.2
    simp only [List.nil_append, List.cons_append, cmpKey]
    by_cases h1 : key 0 > key b
    · exact ⟨2, by simp [h1]⟩
    · exact ⟨1, by rw [if_neg h1, if_pos (by omega)]; simp⟩
  | n + 1, a :: s, [], r, u, ha, _ => by
    have hk := h0 a ha.head.1 ha.head.2
    simp only [List.nil_append, List.cons_append, cmpKey]
    by_cases h1 : key a > key 0
    · exact ⟨2, by simp [h1]⟩
    · exact ⟨1, by rw [if_neg h1, if_pos (by omega)]; simp⟩
  | n + 1, a :: s, b :: t, r, u, ha, hb => by
    have h1 := ha.head
    simp only [List.cons_append, cmpKey, List.take_succ_cons, List.map_cons, List.cons.injEq]
    by_cases hgt : key a > key b
    · exact ⟨2, by rw [if_pos hgt]; simp; omega⟩
    · by_cases hlt : key a < key b
      · exact ⟨1, by rw [if_neg hgt, if_pos hlt]; simp; omega⟩
      · rw [if_neg hgt, if_neg hlt, if_neg (by omega)]
        obtain ⟨v, e, h2, h3⟩ := cmpKey_zero key h0 n s t r u ha.tail hb.tail
        exact ⟨v, e, h2, by rw [h3]; constructor
                            · exact fun h => ⟨by omega, h⟩
                            · exact fun h => h.2⟩

/-- The order of the keys, when they are not negative. -/
theorem cmpKey_order (key : Nat → Nat) (h0 : key 0 = 0) (hpos : ∀ c, 0 < c → 0 < key c) :
    ∀ (n : Nat) (s t r u : List Nat), Bytes s → Bytes t →
      (cmpKey (fun c => (key c : Int)) n (s ++ 0 :: r) (t ++ 0 :: u) = some 1 ↔ Before ((s.take n).map key) ((t.take n).map key)) ∧
      (cmpKey (fun c => (key c : Int)) n (s ++ 0 :: r) (t ++ 0 :: u) = some 2 ↔ Before ((t.take n).map key) ((s.take n).map key))
  | 0, s, t, r, u, _, _ => by simp [cmpKey, Before]
  | n + 1, [], [], r, u, _, _ => by simp [cmpKey, Before]
  | n + 1, [], b :: t, r, u, _, hb => by
    have hk := hpos b hb.head.1
    have hk2 : ¬ ((key b : Int) < 0) := by omega
    simp [cmpKey, Before, h0, hk, hk2]
  | n + 1, a :: s, [], r, u, ha, _ => by
    have hk := hpos a ha.head.1
    simp [cmpKey, Before, h0, hk]
  | n + 1, a :: s, b :: t, r, u, ha, hb => by
    have h1 := ha.head
    simp only [List.cons_append, cmpKey, List.take_succ_cons, List.map_cons, Before, gt_iff_lt, Int.ofNat_lt]
    by_cases hgt : key b < key a
    · rw [if_pos hgt]
      have : key a ≠ key b := by omega
      have h3 : ¬ key a < key b := by omega
      simp [this, h3, hgt]
    · by_cases hlt : key a < key b
      · rw [if_neg hgt, if_pos hlt]
        have : key b ≠ key a := by omega
        simp [this, hlt, hgt]
      · rw [if_neg hgt, if_neg hlt, if_neg (by omega)]
        obtain ⟨e1, e2⟩ := cmpKey_order key h0 hpos n s t r u ha.tail hb.tail
        have h3 : key a = key b := by omega
        rw [e1, e2]
        simp [hlt, hgt, h3]

theorem cmpKey_congr {k1 k2 : Nat → Int} : ∀ (n : Nat) (p q : List Nat), (∀ c, c ∈ p → k1 c = k2 c) → (∀ c, c ∈ q → k1 c = k2 c) →
    cmpKey k1 n p q = cmpKey k2 n p q
  | 0, p, q, _, _ => by simp [cmpKey]
  | n + 1, [], q, _, _ => by simp [cmpKey]
  | n + 1, _ :: _, [], _, _ => by simp [cmpKey]
  | n + 1, a :: p, b :: q, h1, h2 => by
    rw [cmpKey, cmpKey, h1 a (by simp), h2 b (by simp),
      cmpKey_congr n p q (fun c hc => h1 c (by simp [hc])) (fun c hc => h2 c (by simp [hc]))]

/-- Nothing after the ends matters. -/
theorem cmpKey_rest (key : Nat → Int) (h0 : ∀ c, 0 < c → c < 256 → key c ≠ key 0) : ∀ (n : Nat) (s t r u r' u' : List Nat), Bytes s → Bytes t →
    cmpKey key n (s ++ 0 :: r) (t ++ 0 :: u) = cmpKey key n (s ++ 0 :: r') (t ++ 0 :: u')
  | 0, s, t, r, u, _, _, _, _ => by simp [cmpKey]
  | n + 1, [], [], r, u, _, _, _, _ => by simp [cmpKey]
  | n + 1, [], b :: t, r, u, _, _, _, hb => by
    have hk := h0 b hb.head.1 hb.head.2
    simp only [List.nil_append, List.cons_append, cmpKey]
    (repeat' split) <;> first | rfl | omega
  | n + 1, a :: s, [], r, u, _, _, ha, _ => by
    have hk := h0 a ha.head.1 ha.head.2
    simp only [List.nil_append, List.cons_append, cmpKey]
    (repeat' split) <;> first | rfl | omega
  | n + 1, a :: s, b :: t, r, u, r', u', ha, hb => by
    simp only [List.cons_append, cmpKey]
    rw [cmpKey_rest key h0 n s t r u r' u' ha.tail hb.tail]

theorem signed_end (c : Nat) (h1 : 0 < c) (h2 : c < 256) : signed c ≠ signed 0 := fun h => by
  have := signed_inj h2 (by omega) h; omega

theorem map_signed_inj : ∀ (s t : List Nat), Bytes s → Bytes t → s.map signed = t.map signed → s = t
  | [], [], _, _, _ => rfl
  | [], _ :: _, _, _, h => by simp at h
  | _ :: _, [], _, _, h => by simp at h
  | a :: s, b :: t, ha, hb, h => by
    simp only [List.map_cons, List.cons.injEq] at h
    rw [signed_inj ha.head.2 hb.head.2 h.1, map_signed_inj s t ha.tail hb.tail h.2]

theorem Bytes.take {s : List Nat} (h : Bytes s) (n : Nat) : Bytes (s.take n) := fun c hc => h c (List.mem_of_mem_take hc)

theorem cmpKey_signed_ascii (n : Nat) (s t : List Nat) (r u : List Nat) (hs : Bytes s) (ht : Bytes t) (as : Ascii s) (at' : Ascii t) :
    cmpKey signed n (s ++ 0 :: r) (t ++ 0 :: u) = cmpKey (fun c => ((id c : Nat) : Int)) n (s ++ 0 :: r) (t ++ 0 :: u) := by
  rw [cmpKey_rest signed signed_end n s t r u [] [] hs ht,
    cmpKey_rest (fun c => ((id c : Nat) : Int)) (fun c h1 h2 => by simp; omega) n s t r u [] [] hs ht]
  apply cmpKey_congr
  · intro c hc
    rcases List.mem_append.mp hc with h | h
    · exact signed_ascii (as c h)
    · simp at h; subst h; rfl
  · intro c hc
    rcases List.mem_append.mp hc with h | h
    · exact signed_ascii (at' c h)
    · simp at h; subst h; rfl

theorem compareN_zero (n : Nat) (s t r u : List Nat) (hs : Bytes s) (ht : Bytes t) :
    ∃ v, compareN n (s ++ 0 :: r) (t ++ 0 :: u) = some v ∧ v ≤ 2 ∧ (v = 0 ↔ s.take n = t.take n) := by
  obtain ⟨v, e, h1, h2⟩ := cmpKey_zero signed signed_end n s t r u hs ht
  refine ⟨v, by rw [compareN_key]; exact e, h1, ?_⟩
  rw [h2]
  exact ⟨map_signed_inj _ _ (hs.take n) (ht.take n), fun h => by rw [h]⟩

theorem compareN_order (n : Nat) (s t r u : List Nat) (hs : Bytes s) (ht : Bytes t) (as : Ascii s) (at' : Ascii t) :
    (compareN n (s ++ 0 :: r) (t ++ 0 :: u) = some 1 ↔ Before (s.take n) (t.take n)) ∧
    (compareN n (s ++ 0 :: r) (t ++ 0 :: u) = some 2 ↔ Before (t.take n) (s.take n)) := by
  rw [compareN_key, cmpKey_signed_ascii n s t r u hs ht as at']
  have := cmpKey_order id rfl (fun c h => h) n s t r u hs ht
  simpa using this

theorem compare_eq_N (s t r u : List Nat) (hs : Bytes s) (ht : Bytes t) :
    ∃ n, s.length < n ∧ t.length < n ∧ compareAll (s ++ 0 :: r) (t ++ 0 :: u) = compareN n (s ++ 0 :: r) (t ++ 0 :: u) := by
  refine ⟨(s ++ 0 :: r).length + t.length + 1, by simp; omega, by omega, ?_⟩
  rw [compareN_key]
  rcases compare_key (s ++ 0 :: r) (t ++ 0 :: u) ((s ++ 0 :: r).length + t.length + 1) (by omega) with h | h
  · exact absurd h (compare_some s t r u hs ht)
  · exact h

theorem blit_eq : ∀ (t u d : List Nat), Bytes t → t.length ≤ d.length → blit d (t ++ 0 :: u) = some (t ++ d.drop t.length)
  | [], u, d, _, _ => by cases d <;> simp [blit]
  | a :: t, u, [], h, hl => by simp at hl
  | a :: t, u, x :: d, h, hl => by
    have := h.head
    rw [List.cons_append, blit, if_pos (by omega), blit_eq t u d h.tail (by simpa using hl)]
    simp

theorem searchChar_eq (c : Nat) : ∀ (s r : List Nat), Bytes s →
    searchChar c (s ++ 0 :: r) = some (if c ∈ s then some (s.idxOf c) else if c = 0 then some s.length else none)
  | [], r, _ => by
    simp only [List.nil_append, searchChar]
    by_cases h : c = 0
    · simp [h]
    · have h2 : ¬ 0 = c := fun h2 => h h2.symm
      simp [h, h2]
  | a :: s, r, h => by
    have ha := h.head
    rw [List.cons_append, searchChar]
    by_cases hac : a = c
    · subst hac; simp
    · rw [if_neg hac, if_neg (by omega), searchChar_eq c s r h.tail]
      have hca : c ≠ a := fun h => hac h.symm
      simp only [Option.map_some, List.mem_cons, hca, false_or, List.idxOf_cons, List.length_cons]
      have : (a == c) = false := by simp [hac]
      rw [this]
      split
      · rfl
      · split <;> rfl

theorem hitChars_eq (x : Nat) (hx : 0 < x) : ∀ (t u : List Nat), Bytes t → hitChars x (t ++ 0 :: u) = some (decide (x ∈ t))
  | [], u, _ => by simp [hitChars]; omega
  | a :: t, u, h => by
    have := h.head
    rw [List.cons_append, hitChars]
    by_cases hxa : x = a
    · simp [hxa]
    · rw [if_neg hxa, if_neg (by omega), hitChars_eq x hx t u h.tail]; simp [hxa]

theorem hitIndex_eq (x : Nat) (hx : 0 < x) : ∀ (t u : List Nat), Bytes t → hitIndex x (t ++ 0 :: u) = some (decide (x ∈ t))
  | [], u, _ => by simp [hitIndex]; omega
  | a :: t, u, h => by
    have := h.head
    rw [List.cons_append, hitIndex]
    by_cases hxa : x = a
    · simp [hxa]
    · rw [if_neg (by omega), if_neg (by omega), hitIndex_eq x hx t u h.tail]; simp [hxa]

theorem hitIndex_zero : ∀ (t u : List Nat), hitIndex 0 (t ++ 0 :: u) = some true
  | [], u => by simp [hitIndex]
  | a :: t, u => by simp [hitIndex]

theorem searchIndex_eq (t u : List Nat) (ht : Bytes t) : ∀ (s r : List Nat), Bytes s →
    searchIndex (s ++ 0 :: r) (t ++ 0 :: u) = some (s.takeWhile fun c => !decide (c ∈ t)).length
  | [], r, _ => by simp [searchIndex, hitIndex_zero]
  | a :: s, r, h => by
    rw [List.cons_append, searchIndex, hitIndex_eq a h.head.1 t u ht]
    by_cases ha : a ∈ t
    · simp [ha, List.takeWhile_cons]
    · simp [ha, List.takeWhile_cons, searchIndex_eq t u ht s r h.tail]

theorem searchChars_eq (t u : List Nat) (ht : Bytes t) : ∀ (s r : List Nat), Bytes s →
    searchChars (s ++ 0 :: r) (t ++ 0 :: u) =
      some (if ∃ c, c ∈ s ∧ c ∈ t then some (s.takeWhile fun c => !decide (c ∈ t)).length else none)
  | [], r, _ => by simp [searchChars]
  | a :: s, r, h => by
    have := h.head
    rw [List.cons_append, searchChars, if_neg (by simp), if_neg (by omega), hitChars_eq a h.head.1 t u ht]
    by_cases ha : a ∈ t
    · simp [ha, List.takeWhile_cons]
    · simp only [ha, decide_false, Option.bind_some, Bool.false_eq_true, if_false, searchChars_eq t u ht s r h.tail, Option.map_some, List.takeWhile_cons,
        Bool.not_false, if_true, List.length_cons]
      by_cases hex : ∃ c, c ∈ s ∧ c ∈ t
      · obtain ⟨c, h1, h2⟩ := hex
        rw [if_pos ⟨c, h1, h2⟩, if_pos ⟨c, List.mem_cons_of_mem _ h1, h2⟩]; rfl
      · rw [if_neg hex, if_neg]
        · rfl
        · rintro ⟨c, h1, h2⟩
          rcases List.mem_cons.mp h1 with h1 | h1
          · subst h1; exact ha h2
          · exact hex ⟨c, h1, h2⟩

theorem lastFrom_eq (p : List Nat) (c : Nat) : ∀ (n : Nat), n ≤ p.length →
    (∃ i, lastFrom p c n = some (some i) ∧ i < n ∧ p[i]? = some c ∧ ∀ j, i < j → j < n → p[j]? ≠ some c) ∨
    (lastFrom p c n = some none ∧ ∀ j, j < n → p[j]? ≠ some c)
  | 0, _ => Or.inr ⟨rfl, by omega⟩
  | n + 1, h => by
    rw [lastFrom, List.getElem?_eq_getElem (by omega)]
    simp only
    by_cases hx : p[n] = c
    · rw [if_pos hx]
      exact Or.inl ⟨n, rfl, by omega, by rw [List.getElem?_eq_getElem (by omega), hx], by omega⟩
    · rw [if_neg hx]
      have hn : p[n]? ≠ some c := by rw [List.getElem?_eq_getElem (by omega)]; simpa using hx
      rcases lastFrom_eq p c n (by omega) with ⟨i, h1, h2, h3, h4⟩ | ⟨h1, h2⟩
      · refine Or.inl ⟨i, h1, by omega, h3, fun j hj hjn => ?_⟩
        rcases Nat.lt_or_ge j n with e | e
        · exact h4 j hj e
        · rw [show j = n by omega]; exact hn
      · refine Or.inr ⟨h1, fun j hj => ?_⟩
        rcases Nat.lt_or_ge j n with e | e
        · exact h2 j e
        · rw [show j = n by omega]; exact hn

theorem drop_append_end (s r : List Nat) (i : Nat) (h : i ≤ s.length) : (s ++ 0 :: r).drop i = s.drop i ++ 0 :: r :=
  List.drop_append_of_le_length h

theorem occursAt_iff (t s : List Nat) (i : Nat) (hi : i ≤ s.length) : OccursAt t s i ↔ (s.drop i).take t.length = t.take t.length := by
  unfold OccursAt
  rw [List.take_length]
  constructor
  · exact fun h => h.2
  · intro h
    refine ⟨?_, h⟩
    have := congrArg List.length h
    rw [List.length_take, List.length_drop] at this
    omega

theorem findFrom_eq (t u : List Nat) (ht : Bytes t) (s r : List Nat) (hs : Bytes s) : ∀ (k i : Nat), i + k + t.length = s.length + 1 →
    (∃ j, findFrom (t ++ 0 :: u) t.length k ((s ++ 0 :: r).drop i) = some (some j) ∧ OccursAt t s (i + j) ∧ ∀ l, i ≤ l → l < i + j → ¬ OccursAt t s l) ∨
    (findFrom (t ++ 0 :: u) t.length k ((s ++ 0 :: r).drop i) = some none ∧ ∀ l, i ≤ l → ¬ OccursAt t s l)
  | 0, i, h => Or.inr ⟨by simp [findFrom], fun l hl ho => by have := ho.1; omega⟩
  | k + 1, i, h => by
    have hi : i ≤ s.length := by omega
    rw [findFrom, drop_append_end s r i hi]
    obtain ⟨v, e, -, hv⟩ := compareN_zero t.length (s.drop i) t r u (fun c hc => hs c (List.mem_of_mem_drop hc)) ht
    rw [e, ← drop_append_end s r i hi, List.drop_drop]
    simp only [Option.bind_some]
    by_cases h0 : v = 0
    · rw [if_pos h0]
      exact Or.inl ⟨0, rfl, (occursAt_iff t s i hi).mpr (hv.mp h0), by omega⟩
    · rw [if_neg h0]
      have hno : ¬ OccursAt t s i := fun ho => h0 (hv.mpr ((occursAt_iff t s i hi).mp ho))
      rcases findFrom_eq t u ht s r hs k (i + 1) (by omega) with ⟨j, h1, h2, h3⟩ | ⟨h1, h2⟩
      · refine Or.inl ⟨j + 1, by rw [h1]; rfl, by rw [show i + (j + 1) = i + 1 + j by omega]; exact h2, fun l hl hl2 => ?_⟩
        rcases Nat.eq_or_lt_of_le hl with e | e
        · rw [← e]; exact hno
        · exact h3 l e (by omega)
      · refine Or.inr ⟨by rw [h1]; rfl, fun l hl => ?_⟩
        rcases Nat.eq_or_lt_of_le hl with e | e
        · rw [← e]; exact hno
        · exact h2 l e

theorem setChar_eq (c : Nat) : ∀ (n : Nat) (p : List Nat), setChar c n p = if n ≤ p.length then some (List.replicate n c ++ p.drop n) else none
  | 0, p => by simp [setChar]
  | n + 1, [] => by simp [setChar]
  | n + 1, x :: p => by
    rw [setChar, setChar_eq c n p]
    by_cases h : n ≤ p.length
    · simp [h, List.replicate_succ]
    · simp [h]

theorem strcpy_eq : ∀ (t u d : List Nat), Bytes t → t.length < d.length → strcpy d (t ++ 0 :: u) = some (t ++ 0 :: d.drop (t.length + 1))
  | [], u, [], _, h => by simp at h
  | [], u, x :: d, _, _ => by simp [strcpy]
  | a :: t, u, [], _, h => by simp at h
  | a :: t, u, x :: d, h, hl => by
    have := h.head
    rw [List.cons_append, strcpy, if_neg (by omega), strcpy_eq t u d h.tail (by simpa using hl)]
    simp

theorem concatenate3_eq (t u : List Nat) (ht : Bytes t) : ∀ (s r d : List Nat), Bytes s → s.length + t.length < d.length →
    concatenate3 d (s ++ 0 :: r) (t ++ 0 :: u) = some (s ++ t ++ 0 :: d.drop (s.length + t.length + 1))
  | [], r, [], _, h => by simp at h
  | [], r, x :: d, _, h => by
    simp only [List.length_nil, Nat.zero_add, List.length_cons] at h ⊢
    rw [List.nil_append, concatenate3, if_pos rfl, strcpy_eq t u _ ht (by simpa using h)]
    simp
  | a :: s, r, [], _, h => by simp at h
  | a :: s, r, x :: d, ha, h => by
    have := ha.head
    simp only [List.length_cons] at h
    rw [List.cons_append, concatenate3, if_neg (by omega), concatenate3_eq t u ht s r d ha.tail (by omega)]
    simp only [Option.map_some, List.length_cons, List.cons_append, Option.some.injEq, List.cons.injEq, true_and]
    rw [show s.length + 1 + t.length + 1 = (s.length + t.length + 1) + 1 by omega, List.drop_succ_cons]

theorem fill_eq : ∀ (n : Nat) (t u d : List Nat), Bytes t → (t.take n).length < d.length →
    fill n d (t ++ 0 :: u) = some (t.take n ++ 0 :: d.drop ((t.take n).length + 1))
  | 0, t, u, [], _, h => by simp at h
  | 0, t, u, x :: d, _, _ => by simp [fill]
  | n + 1, [], u, [], _, h => by simp at h
  | n + 1, [], u, x :: d, _, _ => by simp [fill]
  | n + 1, a :: t, u, [], _, h => by simp at h
  | n + 1, a :: t, u, x :: d, ha, h => by
    have := ha.head
    rw [List.take_succ_cons] at h ⊢
    simp only [List.length_cons] at h
    rw [List.cons_append, fill, if_neg (by omega), fill_eq n t u d ha.tail (by omega)]
    simp only [Option.map_some, List.length_cons, List.drop_succ_cons, List.cons_append]

theorem concatenateN4_eq (n : Nat) (t u : List Nat) (ht : Bytes t) : ∀ (s r d : List Nat), Bytes s → s.length + (t.take n).length < d.length →
    concatenateN4 n d (s ++ 0 :: r) (t ++ 0 :: u) = some (s ++ t.take n ++ 0 :: d.drop (s.length + (t.take n).length + 1))
  | [], r, [], _, h => by simp at h
  | [], r, x :: d, _, h => by
    simp only [List.length_nil, Nat.zero_add] at h ⊢
    rw [List.nil_append, concatenateN4, if_pos rfl, fill_eq n t u _ ht (by simpa using h)]
    simp only [List.nil_append, List.drop_succ_cons]
  | a :: s, r, [], _, h => by simp at h
  | a :: s, r, x :: d, ha, h => by
    have := ha.head
    simp only [List.length_cons] at h
    rw [List.cons_append, concatenateN4, if_neg (by omega), concatenateN4_eq n t u ht s r d ha.tail (by omega)]
    simp only [Option.map_some, List.length_cons, List.cons_append, Option.some.injEq, List.cons.injEq, true_and]
    rw [show s.length + 1 + (t.take n).length + 1 = (s.length + (t.take n).length + 1) + 1 by omega, List.drop_succ_cons]

theorem takeWhile_length_le {α} (p : α → Bool) : ∀ (s : List α), (s.takeWhile p).length ≤ s.length
  | [] => by simp
  | a :: s => by rw [List.takeWhile_cons]; have := takeWhile_length_le p s; split <;> simp; omega

theorem tokenizeByChars_eq (t u : List Nat) (ht : Bytes t) : ∀ (s r d : List Nat), Bytes s →
    (s.takeWhile fun c => !decide (c ∈ t)).length < d.length →
    tokenizeByChars (s ++ 0 :: r) (t ++ 0 :: u) d =
      some ((s.takeWhile fun c => !decide (c ∈ t)).length + (if ∃ c, c ∈ s ∧ c ∈ t then 1 else 0),
        (s.takeWhile fun c => !decide (c ∈ t)) ++ 0 :: d.drop ((s.takeWhile fun c => !decide (c ∈ t)).length + 1))
  | [], r, [], _, h => by simp at h
  | [], r, x :: d, _, _ => by simp [tokenizeByChars]
  | a :: s, r, [], _, h => by simp at h
  | a :: s, r, x :: d, ha, h => by
    have := ha.head
    rw [List.cons_append, tokenizeByChars, if_neg (by omega), hitChars_eq a this.1 t u ht, List.takeWhile_cons]
    rw [List.takeWhile_cons] at h
    by_cases hat : a ∈ t
    · simp [hat]
    · simp only [hat, decide_false, Bool.not_false, if_true, List.length_cons] at h
      simp only [hat, decide_false, Option.bind_some, Bool.false_eq_true, if_false, Bool.not_false, if_true, List.length_cons]
      rw [tokenizeByChars_eq t u ht s r d ha.tail (by omega)]
      simp only [Option.map_some, List.drop_succ_cons, List.cons_append, Option.some.injEq, Prod.mk.injEq, and_true]
      have : (∃ c, c ∈ a :: s ∧ c ∈ t) ↔ ∃ c, c ∈ s ∧ c ∈ t := by
        constructor
        · rintro ⟨c, h1, h2⟩
          rcases List.mem_cons.mp h1 with h1 | h1
          · subst h1; exact absurd h2 hat
          · exact ⟨c, h1, h2⟩
        · rintro ⟨c, h1, h2⟩; exact ⟨c, List.mem_cons_of_mem _ h1, h2⟩
      by_cases hex : ∃ c, c ∈ s ∧ c ∈ t
      · rw [if_pos hex, if_pos (this.mpr hex)]
      · rw [if_neg hex, if_neg (fun h => hex (this.mp h))]

theorem tokenFrom_eq (t u : List Nat) (ht : Bytes t) : ∀ (k : Nat) (s r d : List Nat), Bytes s → k + t.length = s.length + 1 ∨ (k = 0 ∧ s.length < t.length) →
    s.length < d.length →
    (∃ i, FirstAt t s i ∧ tokenFrom strcpy (t ++ 0 :: u) t.length k (s ++ 0 :: r) d = some (some (i + t.length), s.take i ++ 0 :: d.drop (i + 1))) ∨
    ((∀ i, ¬ OccursAt t s i) ∧ tokenFrom strcpy (t ++ 0 :: u) t.length k (s ++ 0 :: r) d = some (none, s ++ 0 :: d.drop (s.length + 1)))
  | 0, s, r, d, hs, h, hd => by
    refine Or.inr ⟨fun i ho => ?_, ?_⟩
    · have := ho.1; omega
    · rw [tokenFrom, strcpy_eq s r d hs hd]; rfl
  | k + 1, s, r, d, hs, h, hd => by
    obtain ⟨v, e, -, hv⟩ := compareN_zero t.length s t r u hs ht
    rw [tokenFrom, e]
    simp only [Option.bind_some]
    have ho : OccursAt t s 0 ↔ v = 0 := by
      rw [occursAt_iff t s 0 (by omega), hv]; simp
    cases d with
    | nil => simp at hd
    | cons x d =>
      by_cases h0 : v = 0
      · refine Or.inl ⟨0, ⟨ho.mpr h0, by omega⟩, ?_⟩
        cases s with
        | nil => simp [h0]
        | cons a s => simp [h0]
      · have hn : ¬ OccursAt t s 0 := fun hh => h0 (ho.mp hh)
        cases s with
        | nil =>
          exfalso
          simp only [List.length_nil] at h
          have ht0 : t = [] := List.eq_nil_of_length_eq_zero (by omega)
          subst ht0
          exact hn ⟨by simp, by simp⟩
        | cons a s =>
          simp only [List.cons_append, if_neg h0]
          simp only [List.length_cons] at h hd
          have shift : ∀ i, OccursAt t (a :: s) (i + 1) ↔ OccursAt t s i := by
            intro i; unfold OccursAt; simp only [List.length_cons, List.drop_succ_cons]
            constructor
            · exact fun h => ⟨by omega, h.2⟩
            · exact fun h => ⟨by omega, h.2⟩
          rcases tokenFrom_eq t u ht k s r d hs.tail (by omega) (by omega) with ⟨i, ⟨h1, h2⟩, h3⟩ | ⟨h1, h2⟩
          · refine Or.inl ⟨i + 1, ⟨(shift i).mpr h1, fun j hj => ?_⟩, ?_⟩
            · cases j with
              | zero => exact hn
              | succ j => exact fun hh => h2 j (by omega) ((shift j).mp hh)
            · rw [h3]
              simp only [Option.map_some, List.take_succ_cons, List.drop_succ_cons, List.cons_append, Option.some.injEq, Prod.mk.injEq, and_true]
              omega
          · refine Or.inr ⟨fun i => ?_, ?_⟩
            · cases i with
              | zero => exact hn
              | succ i => exact fun hh => h1 i ((shift i).mp hh)
            · rw [h2]; simp

theorem substrLoop_eq : ∀ (k : Nat) (s r d : List Nat), Bytes s → (s.take k).length < d.length →
    substrLoop k (s ++ 0 :: r) d = some (decide (k ≤ s.length), s.take k ++ 0 :: d.drop ((s.take k).length + 1))
  | 0, s, r, [], _, h => by simp at h
  | 0, s, r, x :: d, _, _ => by simp [substrLoop]
  | k + 1, [], r, [], _, h => by simp at h
  | k + 1, [], r, x :: d, _, _ => by simp [substrLoop]
  | k + 1, a :: s, r, [], _, h => by simp at h
  | k + 1, a :: s, r, x :: d, ha, h => by
    have := ha.head
    rw [List.take_succ_cons] at h ⊢
    simp only [List.length_cons] at h
    rw [List.cons_append, substrLoop, if_neg (by omega), substrLoop_eq k s r d ha.tail (by omega)]
    simp

theorem take_takeWhile {α} (p : α → Bool) : ∀ (s : List α), s.take (s.takeWhile p).length = s.takeWhile p
  | [] => rfl
  | a :: s => by
    rw [List.takeWhile_cons]
    split
    · rw [List.length_cons, List.take_succ_cons, take_takeWhile p s]
    · rfl

theorem idxOf_first (c : Nat) : ∀ (s : List Nat) (j : Nat), j < s.idxOf c → s[j]? ≠ some c
  | [], j, h => by simp
  | a :: s, j, h => by
    rw [List.idxOf_cons] at h
    by_cases ha : a = c
    · simp [ha] at h
    · have : (a == c) = false := by simp [ha]
      rw [this] at h
      cases j with
      | zero => simp [ha]
      | succ j =>
        rw [List.getElem?_cons_succ]
        exact idxOf_first c s j (by simpa using h)

end Verif.CStrings
