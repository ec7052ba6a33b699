import Verif.Model.FastResource

/-! Bits, levels and the counters of the path from an element to the root. -/
namespace Verif.FastResource

theorem le_levels (n : Nat) : n ≤ 2 ^ levels n := by
  have key : ∀ fuel k, n ≤ fuel + k → n ≤ 2 ^ levelsFrom n k fuel := by
    intro fuel
    induction fuel with
    | zero => intro k h; simp only [levelsFrom]; have := @Nat.lt_two_pow_self k; omega
    | succ fuel ih =>
      intro k h
      simp only [levelsFrom]
      split
      · exact ih (k + 1) (by omega)
      · omega
  exact key n 0 (by omega)

/-- `p` with the lower `j` bits cleared. -/
def trunc (p j : Nat) : Nat := 2 ^ j * (p / 2 ^ j)

theorem trunc_le (p j : Nat) : trunc p j ≤ p := Nat.mul_div_le _ _

theorem dvd_trunc (p j : Nat) : 2 ^ j ∣ trunc p j := ⟨_, rfl⟩

theorem trunc_of_dvd {p j : Nat} (h : 2 ^ j ∣ p) : trunc p j = p := Nat.mul_div_cancel' h

theorem trunc_trunc (p : Nat) {i j : Nat} (h : i ≤ j) : trunc (trunc p i) j = trunc p j := by
  unfold trunc
  obtain ⟨d, rfl⟩ := Nat.exists_eq_add_of_le h
  have : 2 ^ i * (p / 2 ^ i) / 2 ^ (i + d) = p / 2 ^ (i + d) := by
    rw [Nat.pow_add, ← Nat.div_div_eq_div_mul, Nat.mul_div_cancel_left _ (Nat.two_pow_pos i), Nat.div_div_eq_div_mul]
  rw [this]

theorem trunc_of_lt {p j : Nat} (h : p < 2 ^ j) : trunc p j = 0 := by simp [trunc, Nat.div_eq_of_lt h]

theorem testBit_iff (p k : Nat) : p.testBit k = decide (p / 2 ^ k % 2 = 1) := by
  rw [Nat.testBit_eq_decide_div_mod_eq]

theorem trunc_succ {p k : Nat} (h : 2 ^ k ∣ p) : trunc p (k + 1) = if p.testBit k then p - 2 ^ k else p := by
  have h1 := Nat.mod_pow_succ (x := p) (b := 2) (k := k)
  have h2 := Nat.div_add_mod p (2 ^ (k + 1))
  rw [Nat.mod_eq_zero_of_dvd h] at h1
  unfold trunc
  rw [testBit_iff]
  rcases Nat.mod_two_eq_zero_or_one (p / 2 ^ k) with h3 | h3 <;> rw [h3] at h1 ⊢ <;> simp at h1 ⊢ <;> omega

theorem two_pow_le_of_testBit {p k : Nat} (h : p.testBit k = true) : 2 ^ k ≤ p := Nat.ge_two_pow_of_testBit h

theorem add_bit {x k : Nat} (h : 2 ^ (k + 1) ∣ x) (i : Nat) :
    (x + 2 ^ k).testBit i = (x.testBit i || decide (k = i)) := by
  obtain ⟨m, rfl⟩ := h
  rw [Nat.two_pow_add_eq_or_of_lt (Nat.pow_lt_pow_right (by omega) (by omega)), Nat.testBit_or, Nat.testBit_two_pow]

theorem climb_le (m : Nat) : ∀ (pos k q : Nat), q ∈ climb pos k m → q < pos := by
  induction m with
  | zero => intro pos k q h; cases h
  | succ m ih =>
    intro pos k q h
    simp only [climb] at h
    split at h
    · next hb =>
      have := two_pow_le_of_testBit hb
      have := Nat.two_pow_pos k
      rcases List.mem_cons.mp h with rfl | h
      · omega
      · have := ih _ _ _ h; omega
    · exact ih _ _ _ h

theorem climb_pairwise (m : Nat) : ∀ (pos k : Nat), (climb pos k m).Pairwise (· > ·) := by
  induction m with
  | zero => intro pos k; exact List.Pairwise.nil
  | succ m ih =>
    intro pos k
    simp only [climb]
    split
    · exact List.Pairwise.cons (fun q h => climb_le _ _ _ _ h) (ih _ _)
    · exact ih _ _

theorem climb_length (m : Nat) : ∀ (pos k : Nat), (climb pos k m).length ≤ m := by
  induction m with
  | zero => intro pos k; exact Nat.le_refl 0
  | succ m ih =>
    intro pos k
    simp only [climb]
    split
    · simp only [List.length_cons]; have := ih (pos - 2 ^ k) (k + 1); omega
    · have := ih pos (k + 1); omega

theorem mem_climb (m : Nat) : ∀ (pos k q : Nat), 2 ^ k ∣ pos →
    (q ∈ pos :: climb pos k m ↔ ∃ j, k ≤ j ∧ j ≤ k + m ∧ q = trunc pos j) := by
  induction m with
  | zero =>
    intro pos k q h
    simp only [climb, List.mem_singleton]
    constructor
    · rintro rfl; exact ⟨k, by omega, by omega, (trunc_of_dvd h).symm⟩
    · rintro ⟨j, h1, h2, rfl⟩
      have : j = k := by omega
      subst this; exact trunc_of_dvd h
  | succ m ih =>
    intro pos k q h
    have hs := trunc_succ h
    have hd : 2 ^ (k + 1) ∣ trunc pos (k + 1) := dvd_trunc _ _
    have step : (∃ j, k ≤ j ∧ j ≤ k + (m + 1) ∧ q = trunc pos j) ↔
        q = pos ∨ ∃ j, k + 1 ≤ j ∧ j ≤ k + 1 + m ∧ q = trunc (trunc pos (k + 1)) j := by
      constructor
      · rintro ⟨j, h1, h2, rfl⟩
        rcases Nat.eq_or_lt_of_le h1 with rfl | h1
        · exact Or.inl (trunc_of_dvd h)
        · exact Or.inr ⟨j, by omega, by omega, (trunc_trunc pos h1).symm⟩
      · rintro (rfl | ⟨j, h1, h2, rfl⟩)
        · exact ⟨k, by omega, by omega, (trunc_of_dvd h).symm⟩
        · exact ⟨j, by omega, by omega, trunc_trunc pos h1⟩
    rw [step, ← ih _ _ _ hd, hs, climb]
    by_cases hb : pos.testBit k
    · simp [hb]
    · simp [hb]

theorem mem_chain (L p q : Nat) : q ∈ chain L p ↔ ∃ j, j ≤ L ∧ q = trunc p j := by
  unfold chain
  rw [mem_climb L p 0 q (by simp)]
  constructor
  · rintro ⟨j, -, h, e⟩; exact ⟨j, by omega, e⟩
  · rintro ⟨j, h, e⟩; exact ⟨j, by omega, by omega, e⟩

theorem chain_le {L p q : Nat} (h : q ∈ chain L p) : q ≤ p := by
  obtain ⟨j, -, rfl⟩ := (mem_chain L p q).mp h
  exact trunc_le p j

theorem chain_pairwise (L p : Nat) : (chain L p).Pairwise (· > ·) :=
  List.Pairwise.cons (fun q h => climb_le _ _ _ _ h) (climb_pairwise _ _ _)

theorem chain_length (L p : Nat) : (chain L p).length ≤ L + 1 := by
  simp only [chain, List.length_cons]; have := climb_length L p 0; omega

theorem zero_mem_chain {L p : Nat} (h : p < 2 ^ L) : 0 ∈ chain L p :=
  (mem_chain L p 0).mpr ⟨L, Nat.le_refl L, (trunc_of_lt h).symm⟩

theorem self_mem_chain (L p : Nat) : p ∈ chain L p := by simp [chain]

/-- In a decreasing list, whatever is below an element of a suffix is in that suffix. -/
theorem suffix_down {l s : List Nat} (hl : l.Pairwise (· > ·)) (hs : s <:+ l) {a b : Nat} (ha : a ∈ s) (hb : b ∈ l)
    (h : b < a) : b ∈ s := by
  obtain ⟨pre, rfl⟩ := hs
  rcases List.mem_append.mp hb with h1 | h1
  · have := (List.pairwise_append.mp hl).2.2 b h1 a ha; omega
  · exact h1

theorem suffix_head_not_mem {l : List Nat} (hl : l.Pairwise (· > ·)) {q : Nat} {s : List Nat} (hs : q :: s <:+ l) : q ∉ s := by
  have := (List.Pairwise.sublist hs.sublist hl)
  intro h
  have := List.rel_of_pairwise_cons this h
  omega

/-- Whoever counts in the right child of a node counts in the node. -/
theorem right_child {L p pos c : Nat} (hc : 0 < c) (hcL : c ≤ L) (hd : 2 ^ c ∣ pos) (h : pos + 2 ^ (c - 1) ∈ chain L p) :
    pos ∈ chain L p := by
  obtain ⟨c, rfl⟩ : ∃ c', c = c' + 1 := ⟨c - 1, by omega⟩
  simp only [Nat.add_sub_cancel] at h
  obtain ⟨j, hj, e⟩ := (mem_chain _ _ _).mp h
  refine (mem_chain _ _ _).mpr ⟨c + 1, hcL, ?_⟩
  obtain ⟨m, rfl⟩ := hd
  have hne : ¬ 2 ^ (c + 1) ∣ 2 ^ (c + 1) * m + 2 ^ c := by
    intro h
    have := (Nat.dvd_add_right ⟨m, rfl⟩).mp h
    have := Nat.le_of_dvd (Nat.two_pow_pos c) this
    have := Nat.pow_lt_pow_right (a := 2) (by omega) (Nat.lt_succ_self c)
    omega
  have hj' : j ≤ c := by
    rcases Nat.lt_or_ge c j with h1 | h1
    · exfalso; apply hne; rw [e]; exact Nat.dvd_trans (Nat.pow_dvd_pow 2 h1) (dvd_trunc _ _)
    · exact h1
  rw [← trunc_trunc p (Nat.le_succ_of_le hj'), ← e]
  unfold trunc
  have hlt : 2 ^ c < 2 ^ (c + 1) := Nat.pow_lt_pow_right (by omega) (by omega)
  rw [Nat.mul_add_div (Nat.two_pow_pos _), Nat.div_eq_of_lt hlt]; rfl

/-- The elements of the node at `pos`, level `c`. -/
theorem mem_chain_node {L p pos c : Nat} (hcL : c ≤ L) (hd : 2 ^ c ∣ pos) (h1 : pos ≤ p) (h2 : p < pos + 2 ^ c) :
    pos ∈ chain L p := by
  refine (mem_chain _ _ _).mpr ⟨c, hcL, ?_⟩
  obtain ⟨m, rfl⟩ := hd
  unfold trunc
  congr 1
  rw [Nat.div_eq_of_lt_le] <;> rw [Nat.mul_comm] 
  · exact h1
  · rw [Nat.mul_add]; omega

end Verif.FastResource
