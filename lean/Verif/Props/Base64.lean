import Verif.Proof.Base64

namespace Verif.Base64
open Verif

set_option maxRecDepth 8000 in
/-- One full group decodes to its three bytes. -/
theorem decode_group (a b c : UInt8) (rest : List UInt8) :
    decode (encode (a :: b :: c :: rest)) =
      ((decode (encode rest)).1, a :: b :: c :: (decode (encode rest)).2) := by
  have ha := a.toNat_lt; have hb := b.toNat_lt; have hc := c.toNat_lt
  simp only [encode, List.cons_append, List.nil_append, decode, and3, andF, and3F, or8 _ _ hb,
    or8 _ _ hc, shr]
  have h0 : a.toNat / 2 ^ 2 < 64 := by omega
  have h1 : (a.toNat % 4 * 256 + b.toNat) / 2 ^ 4 < 64 := by omega
  have h2 : ((a.toNat % 4 * 256 + b.toNat) % 16 * 256 + c.toNat) / 2 ^ 6 < 64 := by omega
  have h3 : ((a.toNat % 4 * 256 + b.toNat) % 16 * 256 + c.toNat) % 64 < 64 := by omega
  simp only [letter_ne_eq _ h0, letter_ne_eq _ h1, letter_ne_eq _ h2, letter_ne_eq _ h3,
    key_letter _ h0, key_letter _ h1, key_letter _ h2, key_letter _ h3, or6 _ _ h1, or6 _ _ h2,
    or6 _ _ h3, if_false]
  rw [if_neg (by omega), if_neg (by omega), if_neg (by omega), if_neg (by omega)]
  rw [ofNat_eq (b := a) (by omega), ofNat_eq (b := b) (by omega), ofNat_eq (b := c) (by omega)]

theorem decode_two (a b : UInt8) : decode (encode [a, b]) = (true, [a, b]) := by
  have ha := a.toNat_lt; have hb := b.toNat_lt
  simp only [encode, decode, and3, andF, or8 _ _ hb, shr]
  have h0 : a.toNat / 2 ^ 2 < 64 := by omega
  have h1 : (a.toNat % 4 * 256 + b.toNat) / 2 ^ 4 < 64 := by omega
  have h2 : ((a.toNat % 4 * 256 + b.toNat) % 16) <<< 2 < 64 := by rw [shl]; omega
  simp only [letter_ne_eq _ h0, letter_ne_eq _ h1, letter_ne_eq _ h2,
    key_letter _ h0, key_letter _ h1, key_letter _ h2, or6 _ _ h1, or6 _ _ h2, if_false, if_true]
  rw [if_neg (by omega), if_neg (by omega), if_neg (by omega)]
  simp only [shl]
  rw [ofNat_eq (b := a) (by omega), ofNat_eq (b := b) (by omega)]

theorem decode_one (a : UInt8) : decode (encode [a]) = (true, [a, 0]) := by
  have ha := a.toNat_lt
  simp only [encode, decode, and3, andF, shr]
  have h0 : a.toNat / 2 ^ 2 < 64 := by omega
  have h1 : (a.toNat % 4) <<< 4 < 64 := by rw [shl]; omega
  simp only [letter_ne_eq _ h0, letter_ne_eq _ h1,
    key_letter _ h0, key_letter _ h1, or6 _ _ h1, if_false, if_true]
  rw [if_neg (by omega), if_neg (by omega)]
  simp only [shl]
  rw [ofNat_eq (b := a) (by omega), ofNat_eq (b := 0) (by simp; omega)]

/-- **C14 (exact behaviour).** `Decode` after `Encode` always succeeds; it returns the original bytes,
followed by one spurious zero byte exactly when the length is `1` modulo `3`. -/
theorem c14_decode_encode (xs : List UInt8) :
    decode (encode xs) = (true, xs ++ if xs.length % 3 = 1 then [0] else []) := by
  match xs with
  | [] => simp [encode, decode]
  | [a] => rw [decode_one]; simp
  | [a, b] => rw [decode_two]; simp
  | a :: b :: c :: rest =>
    rw [decode_group, c14_decode_encode rest]
    have : (a :: b :: c :: rest).length % 3 = rest.length % 3 := by simp; omega
    rw [this]; simp

/-- **C14 (partial).** The round trip is the identity when the length is not `1` modulo `3`.
Missing: lengths `1` modulo `3`, where the code is wrong (`c14_roundtrip_fails`). -/
theorem c14_roundtrip_partial (xs : List UInt8) (h : xs.length % 3 ≠ 1) :
    decode (encode xs) = (true, xs) := by
  rw [c14_decode_encode, if_neg h, List.append_nil]

example : decode (encode [77, 65, 82, 84, 101]) = (true, [77, 65, 82, 84, 101]) :=
  c14_roundtrip_partial _ (by decide)

/-- The full round-trip claim of C14 is false of the code: the text of the one-byte string `"M"`
decodes to two bytes. -/
theorem c14_roundtrip_fails : ¬ ∀ xs : List UInt8, (decode (encode xs)).2 = xs := by
  intro h; exact absurd (h [77]) (by rw [c14_decode_encode]; decide)

/-- **C14.** `Encode` writes exactly the RFC 4648 text of its input. -/
theorem c14_encode_is_rfc4648 (xs : List UInt8) :
    (encode xs).map UInt8.toNat = (Spec.Base64.encode xs).map Char.toNat := by
  match xs with
  | [] => rfl
  | [a] =>
    have ha := a.toNat_lt
    have h0 : a.toNat / 4 < 64 := by omega
    have h1 : (a.toNat % 4) * 16 < 64 := by omega
    rw [spec_encode_one, enc_one]
    simp [letter_spec _ h0, letter_spec _ h1, eqChar]
  | [a, b] =>
    have ha := a.toNat_lt; have hb := b.toNat_lt
    rw [spec_encode_two, enc_two]
    have h0 : a.toNat / 4 < 64 := by omega
    have h1 : (a.toNat % 4 * 16 + b.toNat / 16) < 64 := by omega
    have h2 : (b.toNat % 16) * 4 < 64 := by omega
    simp [letter_spec _ h0, letter_spec _ h1, letter_spec _ h2, eqChar]
  | a :: b :: c :: rest =>
    have ha := a.toNat_lt; have hb := b.toNat_lt; have hc := c.toNat_lt
    rw [spec_encode_three, enc_three, List.map_append, List.map_append,
      c14_encode_is_rfc4648 rest]
    have h0 : a.toNat / 4 < 64 := by omega
    have h1 : (a.toNat % 4 * 16 + b.toNat / 16) < 64 := by omega
    have h2 : (b.toNat % 16 * 4 + c.toNat / 64) < 64 := by omega
    have h3 : c.toNat % 64 < 64 := by omega
    simp [letter_spec _ h0, letter_spec _ h1, letter_spec _ h2, letter_spec _ h3]

/-- **C14.** On a text made of whole groups and free of padding, `Decode` succeeds exactly when every
character belongs to the RFC alphabet. -/
theorem c14_decode_rejects_foreign (cs : List UInt8) (h4 : cs.length % 4 = 0) (hp : eqChar ∉ cs) :
    (decode cs).1 = true ↔ ∀ c ∈ cs, ∃ v < 64, c.toNat = (Spec.Base64.letterOf v).toNat := by
  match cs with
  | [] => simp [decode]
  | [_] | [_, _] | [_, _, _] => simp at h4
  | c0 :: c1 :: c2 :: c3 :: rest =>
    simp only [List.mem_cons, not_or] at hp
    have hr := c14_decode_rejects_foreign rest (by simp at h4; omega) hp.2.2.2.2
    simp only [List.mem_cons, forall_eq_or_imp, ← hr,
      ← key_valid _ (Ne.symm hp.1), ← key_valid _ (Ne.symm hp.2.1), ← key_valid _ (Ne.symm hp.2.2.1),
      ← key_valid _ (Ne.symm hp.2.2.2.1)]
    simp only [decode, if_neg (Ne.symm hp.1), if_neg (Ne.symm hp.2.1), if_neg (Ne.symm hp.2.2.1),
      if_neg (Ne.symm hp.2.2.2.1)]
    repeat' split
    all_goals simp_all

example : (decode [77, 65, 82, 33]).1 = false ∧ (decode [77, 65, 82, 84]).1 = true := by decide +kernel

end Verif.Base64
