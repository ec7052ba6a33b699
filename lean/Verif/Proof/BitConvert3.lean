import Verif.Proof.BitConvert2
set_option linter.unusedSimpArgs false
namespace Verif.BitConvert

theorem normalise_spec (g p sh : Nat) (hg : g = 1 ∨ g = 2 ∨ g = 4 ∨ g = 8 ∨ g = 16) :
    8 * (normalise g p sh).1 + (normalise g p sh).2 = 8 * p + sh ∧ (normalise g p sh).2 = sh % (8 * g) := by
  unfold normalise
  split
  · refine ⟨?_, rfl⟩
    show 8 * (p + sh / (8 * g) * g) + sh % (8 * g) = 8 * p + sh
    rcases hg with rfl | rfl | rfl | rfl | rfl <;> omega
  · refine ⟨rfl, ?_⟩
    show sh = sh % (8 * g)
    rw [Nat.mod_eq_of_lt (by omega)]

/-- What a conversion leaves in the memory. -/
def Written (mem mem' : Mem) (a d : Nat) (dS : Bool) (b s : Nat) (sS : Bool) : Prop :=
  mem'.length = mem.length ∧ ∀ i, Spec.BitConvert.bit mem' i
    = if a ≤ i ∧ i < a + d then (stored d dS s sS (Spec.BitConvert.bits mem b s)).testBit (i - a)
      else if a + d ≤ i ∧ i < (a + d + 7) / 8 * 8 then
        (stored d dS s sS (Spec.BitConvert.bits mem b s)).testBit (i - a) || Spec.BitConvert.bit mem i
      else Spec.BitConvert.bit mem i

theorem bitSetToBitSet_written (g : Nat) (hg : g = 1 ∨ g = 2 ∨ g = 4 ∨ g = 8 ∨ g = 16) (mem : Mem) (d s : Field)
    (hd0 : 0 < d.bits) (hs0 : 0 < s.bits)
    (hd : d.shift % (8 * g) + d.bits ≤ 128) (hs : s.shift % (8 * g) + s.bits ≤ 128)
    (hdm : 8 * d.pointer + d.shift + d.bits ≤ 8 * mem.length)
    (hsm : 8 * s.pointer + s.shift + s.bits ≤ 8 * mem.length) :
    ∃ mem' dp dsh sp ssh, bitSetToBitSet g mem d s = some (true, mem', (dp, dsh), (sp, ssh)) ∧
      8 * dp + dsh = 8 * d.pointer + d.shift + d.bits ∧ 8 * sp + ssh = 8 * s.pointer + s.shift + s.bits ∧
      Written mem mem' (8 * d.pointer + d.shift) d.bits d.signed (8 * s.pointer + s.shift) s.bits s.signed := by
  obtain ⟨hd1, hd2⟩ := normalise_spec g d.pointer d.shift hg
  obtain ⟨hs1, hs2⟩ := normalise_spec g s.pointer s.shift hg
  rcases hnd : normalise g d.pointer d.shift with ⟨dp, dsh⟩
  rcases hns : normalise g s.pointer s.shift with ⟨sp, ssh⟩
  rw [hnd] at hd1 hd2
  rw [hns] at hs1 hs2
  simp only at hd1 hd2 hs1 hs2
  have hu : ∀ x, x ≤ 128 → u8 x = x := by intro x hx; unfold u8; omega
  have key : ∀ w, (w = 8 ∨ w = 16 ∨ w = 32 ∨ w = 64 ∨ w = 128) → dsh + d.bits ≤ w → ssh + s.bits ≤ w →
      ∃ mem', bsToBS (uintWord w) mem dp dsh d.bits d.signed sp ssh s.bits s.signed = some mem' ∧
        Written mem mem' (8 * d.pointer + d.shift) d.bits d.signed (8 * s.pointer + s.shift) s.bits s.signed := by
    intro w hw h1 h2
    obtain ⟨mem', e1, e2, e3⟩ := bsToBS_bits w hw mem dp dsh d.bits d.signed sp ssh s.bits s.signed hd0 hs0 h1 h2
      (by omega) (by omega)
    refine ⟨mem', e1, e2, ?_⟩
    intro i
    rw [e3 i, hd1, hs1]
    have : 8 * (dp + (d.bits + dsh + 7) / 8) = (8 * d.pointer + d.shift + d.bits + 7) / 8 * 8 := by omega
    rw [this]
  unfold bitSetToBitSet
  rw [hnd, hns]
  simp only [Option.bind_eq_bind, Option.pure_def]
  have e1 : u8 (ssh + s.bits) = ssh + s.bits := hu _ (by omega)
  have e2 : u8 (dsh + d.bits) = dsh + d.bits := hu _ (by omega)
  have e3 : u8 (8 * g) ≤ 128 := by rcases hg with rfl | rfl | rfl | rfl | rfl <;> decide
  rw [e1, e2]
  have fin : ∀ w, (w = 8 ∨ w = 16 ∨ w = 32 ∨ w = 64 ∨ w = 128) → dsh + d.bits ≤ w → ssh + s.bits ≤ w →
      ∃ mem' dp' dsh' sp' ssh',
        (((bsToBS (uintWord w) mem dp dsh d.bits d.signed sp ssh s.bits s.signed).map (fun m => (true, m))).bind
          fun x => some (x.1, x.2, (dp, dsh + d.bits), (sp, ssh + s.bits)))
          = some (true, mem', (dp', dsh'), (sp', ssh')) ∧
        8 * dp' + dsh' = 8 * d.pointer + d.shift + d.bits ∧ 8 * sp' + ssh' = 8 * s.pointer + s.shift + s.bits ∧
        Written mem mem' (8 * d.pointer + d.shift) d.bits d.signed (8 * s.pointer + s.shift) s.bits s.signed := by
    intro w hw h1 h2
    obtain ⟨mem', f1, f2⟩ := key w hw h1 h2
    refine ⟨mem', dp, dsh + d.bits, sp, ssh + s.bits, ?_, by omega, by omega, f2⟩
    rw [f1]
    rfl
  split
  · rename_i h; exact fin 8 (by omega) h.2.1 h.1
  · split
    · rename_i h; exact fin 16 (by omega) h.2.1 h.1
    · split
      · rename_i h; exact fin 32 (by omega) h.2.1 h.1
      · split
        · rename_i h; exact fin 64 (by omega) h.2.1 h.1
        · have hc : ssh + s.bits ≤ 128 ∧ dsh + d.bits ≤ 128 ∧ u8 (8 * g) ≤ 128 := ⟨by omega, by omega, e3⟩
          rw [if_pos hc, bsToBS_dbl]
          exact fin 128 (by omega) hc.2.1 hc.1

theorem bitSetToBitSet_refused (g : Nat) (hg : g = 1 ∨ g = 2 ∨ g = 4 ∨ g = 8 ∨ g = 16) (mem : Mem) (d s : Field)
    (hd : d.shift % (8 * g) + d.bits < 256) (hs : s.shift % (8 * g) + s.bits < 256)
    (h : 128 < d.shift % (8 * g) + d.bits ∨ 128 < s.shift % (8 * g) + s.bits) :
    ∃ p q, bitSetToBitSet g mem d s = some (false, mem, p, q) := by
  obtain ⟨hd1, hd2⟩ := normalise_spec g d.pointer d.shift hg
  obtain ⟨hs1, hs2⟩ := normalise_spec g s.pointer s.shift hg
  rcases hnd : normalise g d.pointer d.shift with ⟨dp, dsh⟩
  rcases hns : normalise g s.pointer s.shift with ⟨sp, ssh⟩
  rw [hnd] at hd1 hd2
  rw [hns] at hs1 hs2
  simp only at hd1 hd2 hs1 hs2
  unfold bitSetToBitSet
  rw [hnd, hns]
  simp only [Option.bind_eq_bind, Option.pure_def]
  have e1 : u8 (ssh + s.bits) = ssh + s.bits := by unfold u8; omega
  have e2 : u8 (dsh + d.bits) = dsh + d.bits := by unfold u8; omega
  rw [e1, e2]
  repeat rw [if_neg (by omega)]
  exact ⟨_, _, rfl⟩

theorem written_value (mem mem' : Mem) (a d : Nat) (dS : Bool) (b s : Nat) (sS : Bool) (hd0 : 0 < d) (hs0 : 0 < s)
    (h : Written mem mem' a d dS b s sS) :
    Spec.BitConvert.value mem' a d dS = Spec.BitConvert.clamp d dS (Spec.BitConvert.value mem b s sS) := by
  rw [value_decode _ _ _ hd0, value_decode _ _ _ hs0]
  rw [bits_of_bit mem' a d (stored d dS s sS (Spec.BitConvert.bits mem b s))]
  · exact stored_clamp d dS s sS _ hd0 hs0 (bits_lt mem b s)
  · intro i h1 h2
    rw [h.2 i, if_pos ⟨h1, h2⟩]

theorem written_others (mem mem' : Mem) (a d : Nat) (dS : Bool) (b s : Nat) (sS : Bool) (hd0 : 0 < d) (hs0 : 0 < s)
    (h : Written mem mem' a d dS b s sS)
    (hq : (a + d) % 8 = 0 ∨ ¬ (sS = true ∧ dS = true ∧ d < s ∧ Spec.BitConvert.value mem b s sS < 0 ∧
      Spec.BitConvert.least d dS ≤ Spec.BitConvert.value mem b s sS))
    (i : Nat) (hi : i < a ∨ a + d ≤ i) : Spec.BitConvert.bit mem' i = Spec.BitConvert.bit mem i := by
  rw [h.2 i, if_neg (by omega)]
  by_cases hc : a + d ≤ i ∧ i < (a + d + 7) / 8 * 8
  · rw [if_pos hc]
    rcases hq with hq | hq
    · omega
    · have hlt := stored_lt d dS s sS (Spec.BitConvert.bits mem b s) hd0 hs0 (bits_lt mem b s) (by
        rintro ⟨h1, h2, h3, h4, h5⟩
        apply hq
        rw [value_decode _ _ _ hs0]
        refine ⟨h1, h2, h3, h4, ?_⟩
        unfold Spec.BitConvert.least
        rw [h2, if_pos rfl]
        exact h5)
      have : (stored d dS s sS (Spec.BitConvert.bits mem b s)).testBit (i - a) = false := by
        apply Nat.testBit_lt_two_pow
        exact Nat.lt_of_lt_of_le hlt (Nat.pow_le_pow_right (by omega) (by omega))
      rw [this, Bool.false_or]
  · rw [if_neg hc]

theorem written_ones (mem mem' : Mem) (a d b s : Nat) (hd0 : 0 < d) (hsd : d < s)
    (h : Written mem mem' a d true b s true)
    (h0 : Spec.BitConvert.value mem b s true < 0)
    (h1 : Spec.BitConvert.least d true ≤ Spec.BitConvert.value mem b s true)
    (i : Nat) (hi : a + d ≤ i) (hi8 : i < (a + d + 7) / 8 * 8) (his : i < a + s) :
    Spec.BitConvert.bit mem' i = true := by
  rw [h.2 i, if_neg (by omega), if_pos ⟨hi, hi8⟩]
  rw [value_decode _ _ _ (by omega)] at h0 h1
  have := stored_ones d s (Spec.BitConvert.bits mem b s) hd0 hsd (bits_lt mem b s) h0 h1 (i - a) (by omega) (by omega)
  rw [this, Bool.true_or]

end Verif.BitConvert
