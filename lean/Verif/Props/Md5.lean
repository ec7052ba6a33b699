import Verif.Proof.Md5
/-!
# C58: MD5 and HMAC-MD5
-/
set_option linter.unusedSimpArgs false
set_option maxRecDepth 8000
namespace Verif.Md5

/-- **C58.** `Md5` gives the digest of RFC 1321, for every input (its length is a 32 bit number). -/
theorem c58_md5 (input : List Byte) (h : input.length < 2 ^ 32) : md5 input = Spec.md5 input := by
  unfold md5
  have h0 : Inv [] (starts create) := starts_inv create rfl
  have h1 := update_inv _ _ h0 input h (by simp; omega)
  rw [List.nil_append] at h1
  exact (finish_spec _ _ h1 (by omega)).1

/-- `"abc"`. -/
example : md5 [0x61, 0x62, 0x63] =
    [0x90, 0x01, 0x50, 0x98, 0x3C, 0xD2, 0x4F, 0xB0, 0xD6, 0x96, 0x3F, 0x7D, 0x28, 0xE1, 0x7F, 0x72] := by decide +kernel

private theorem updates (pieces : List (List Byte)) : ∀ (m : List Byte) (c : Ctx), Inv m c → (∀ p ∈ pieces, p.length < 2 ^ 32) →
    m.length + pieces.flatten.length < 2 ^ 64 → Inv (m ++ pieces.flatten) (pieces.foldl update c) := by
  induction pieces with
  | nil => intro m c h _ _; simpa using h
  | cons p ps ih =>
    intro m c h hp hl
    rw [List.flatten_cons, List.length_append] at hl
    have h1 := update_inv m c h p (hp p (by simp)) (by omega)
    have h2 := ih _ _ h1 (fun q hq => hp q (by simp [hq])) (by rw [List.length_append]; omega)
    rw [List.flatten_cons, ← List.append_assoc]
    exact h2

/-- **C58.** The message may be given in any pieces: after `Starts`, any number of `Update` and `Finish`, the output is the digest of
all the bytes one after the other; whatever the context held before (`c`), in particular after another `Finish`. -/
theorem c58_update (c : Ctx) (hc : c.buffer.length = 64) (pieces : List (List Byte)) (hp : ∀ p ∈ pieces, p.length < 2 ^ 32)
    (hl : pieces.flatten.length + 128 < 2 ^ 64) :
    (finish (pieces.foldl update (starts c))).2 = Spec.md5 pieces.flatten ∧
      (finish (pieces.foldl update (starts c))).1.buffer.length = 64 := by
  have h := updates pieces [] _ (starts_inv c hc) hp (by simp only [List.length_nil]; omega)
  rw [List.nil_append] at h
  exact finish_spec _ _ h hl

/-- `"a"`, nothing, and `"bc"`. -/
example : (finish ([[0x61], [], [0x62, 0x63]].foldl update (starts create))).2 = md5 [0x61, 0x62, 0x63] := by decide +kernel

/-- **C58 (partial).** `Md5Hmac` gives the code of RFC 2104 for keys of at most 64 bytes; missing: longer keys. -/
theorem c58_hmac_partial (key input : List Byte) (hk : key.length ≤ 64) (hi : input.length < 2 ^ 32) :
    hmac key input = Spec.hmac key input := by
  rw [hmac_spec key input hi, keyPad_short _ _ _ hk, keyPad_short _ _ _ hk]
  unfold Spec.hmac Spec.blockKey
  dsimp only
  rw [if_neg (show ¬ key.length > 64 by omega)]

/-- The second test of RFC 2202: key `"Jefe"`, text `"what do ya want for nothing?"`. -/
example : hmac ("Jefe".toList.map fun c => BitVec.ofNat 8 c.toNat)
    ("what do ya want for nothing?".toList.map fun c => BitVec.ofNat 8 c.toNat) =
    [0x75, 0x0C, 0x78, 0x3E, 0x6A, 0xB0, 0xB5, 0x03, 0xEA, 0xA8, 0x6E, 0x31, 0x0A, 0x5D, 0xB7, 0x38] := by decide +kernel

/-- **C58 fails for long keys.** The bytes of the key after the sixty-fourth are ignored: the code is that of another key, … -/
theorem c58_long_key_ignored_fails (key rest input : List Byte) (hk : key.length = 64) (hi : input.length < 2 ^ 32) :
    hmac (key ++ rest) input = Spec.hmac key input := by
  rw [hmac_spec _ input hi, keyPad_long _ _ _ (by rw [List.length_append]; omega), keyPad_long _ _ _ (by rw [List.length_append]; omega),
    List.take_append_of_le_length (by omega), List.take_of_length_le (by omega)]
  unfold Spec.hmac Spec.blockKey
  dsimp only
  rw [if_neg (show ¬ key.length > 64 by omega), hk]
  simp

/-- **C58 fails for long keys**: … and not the one of RFC 2104 (sixth test of RFC 2202: 80 bytes `0xAA`). -/
theorem c58_long_key_fails :
    hmac (List.replicate 80 0xAA) ("Test Using Larger Than Block-Size Key - Hash Key First".toList.map fun c => BitVec.ofNat 8 c.toNat) ≠
      Spec.hmac (List.replicate 80 0xAA) ("Test Using Larger Than Block-Size Key - Hash Key First".toList.map fun c => BitVec.ofNat 8 c.toNat) := by
  decide +kernel

/-- The specification gives the code that RFC 2202 lists for that test. -/
example : Spec.hmac (List.replicate 80 0xAA) ("Test Using Larger Than Block-Size Key - Hash Key First".toList.map fun c => BitVec.ofNat 8 c.toNat) =
    [0x6B, 0x1A, 0xB7, 0xFE, 0x4B, 0xD7, 0xBF, 0x8F, 0x0B, 0x62, 0xE6, 0xCE, 0x61, 0xB9, 0xD0, 0xCD] := by decide +kernel

end Verif.Md5
