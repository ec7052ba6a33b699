import Verif.Model.ObjConvert
import Verif.Spec.ObjConvert
set_option linter.unusedSimpArgs false
namespace Verif.ObjConvert
open Spec

theorem sum_mul (f : Nat → Nat) (c : Nat) : ∀ l : List Nat, (l.map fun i => f i * c).sum = (l.map f).sum * c
  | [] => by simp
  | x :: l => by simp [sum_mul f c l, Nat.add_mul]

theorem load_eq (mem : Mem) : ∀ (n a : Nat), load mem a n = natAt mem a n
  | 0, a => by simp [load, natAt]
  | n + 1, a => by
    unfold load
    rw [load_eq mem n (a + 1)]
    unfold natAt
    rw [List.range_succ_eq_map]
    simp only [List.map_cons, List.map_map, List.sum_cons, Nat.add_zero, Nat.pow_zero, Nat.mul_one]
    congr 1
    rw [Nat.mul_comm, ← sum_mul]
    congr 1
    apply List.map_congr_left
    intro i _
    simp only [Function.comp, Nat.succ_eq_add_one]
    rw [Nat.pow_succ, show a + 1 + i = a + (i + 1) by omega, Nat.mul_assoc]

theorem store_outside : ∀ (n : Nat) (mem : Mem) (a v x : Nat), ¬ (a ≤ x ∧ x < a + n) → store mem a n v x = mem x
  | 0, _, _, _, _, _ => rfl
  | n + 1, mem, a, v, x, h => by
    unfold store
    rw [store_outside n _ _ _ _ (by omega)]
    exact if_neg (by omega)

theorem load_store : ∀ (n : Nat) (mem : Mem) (a v : Nat), load (store mem a n v) a n = v % 256 ^ n
  | 0, _, _, _ => by simp [load, Nat.mod_one]
  | n + 1, mem, a, v => by
    unfold load store
    rw [load_store n, store_outside n _ _ _ _ (by omega), if_pos rfl, Nat.pow_succ, Nat.mul_comm (256 ^ n) 256, Nat.mod_mul]
    rfl

theorem natAt_congr {m m' : Mem} {a n : Nat} (h : ∀ x, a ≤ x ∧ x < a + n → m x = m' x) : natAt m a n = natAt m' a n := by
  unfold natAt
  congr 1
  apply List.map_congr_left
  intro i hi
  simp at hi
  rw [h (a + i) (by omega)]

mutual
theorem value_congr {m m' : Mem} : ∀ (t : Ty) (a : Nat), (∀ x, Holds t a x → m x = m' x) → valueAt m t a = valueAt m' t a
  | .int w s _, a, h => by
    simp only [valueAt, intAt]
    rw [natAt_congr (fun x hx => h x (by simpa [Holds] using hx))]
  | .struct ms, a, h => by
    simp only [valueAt]
    rw [values_congr ms a (fun x hx => h x (by simpa [Holds] using hx))]
theorem values_congr {m m' : Mem} : ∀ (ms : Members) (a : Nat), (∀ x, HoldsAll ms a x → m x = m' x) → valuesAt m ms a = valuesAt m' ms a
  | .nil, _, _ => rfl
  | .cons o t rest, a, h => by
    simp only [valuesAt]
    rw [value_congr t (a + o) (fun x hx => h x (by simp only [HoldsAll]; exact Or.inl hx)),
      values_congr rest a (fun x hx => h x (by simp only [HoldsAll]; exact Or.inr hx))]
end

theorem pow_even {bytes : Nat} (h : 0 < bytes) : ∃ K : Nat, 0 < K ∧ 256 ^ bytes = 2 * K := by
  obtain ⟨n, rfl⟩ : ∃ n, bytes = n + 1 := ⟨bytes - 1, by omega⟩
  refine ⟨128 * 256 ^ n, by have := Nat.pow_pos (n := n) (show 0 < 256 by decide); omega, ?_⟩
  rw [Nat.pow_succ]
  omega

theorem pow_cast (bytes K : Nat) (h : 256 ^ bytes = 2 * K) : (256 ^ bytes : Int) = 2 * (K : Int) := by
  have h2 : ((256 ^ bytes : Nat) : Int) = ((2 * K : Nat) : Int) := congrArg _ h
  simpa using h2

theorem nearest_iff {bytes : Nat} (hb : 0 < bytes) (signed : Bool) (v w : Int) : Nearest bytes signed v w ↔ w = saturate bytes signed v := by
  obtain ⟨K, hK, e⟩ := pow_even hb
  have e2 := pow_cast bytes K e
  unfold Nearest InRange saturate
  rw [e, e2]
  cases signed with
  | true =>
    simp only [if_true]
    have hd : 2 * K / 2 = K := by omega
    rw [hd]
    constructor
    · rintro ⟨h1, h2⟩
      have a1 := h2 (-(K : Int)) (by omega)
      have a2 := h2 ((K : Int) - 1) (by omega)
      by_cases c1 : v < -(K : Int)
      · rw [if_pos c1]; omega
      · rw [if_neg c1]
        by_cases c2 : ((K - 1 : Nat) : Int) < v
        · rw [if_pos c2]; omega
        · rw [if_neg c2]
          have a3 := h2 v (by omega)
          omega
    · intro h
      by_cases c1 : v < -(K : Int)
      · rw [if_pos c1] at h
        exact ⟨by omega, fun u hu => by omega⟩
      · rw [if_neg c1] at h
        by_cases c2 : ((K - 1 : Nat) : Int) < v
        · rw [if_pos c2] at h
          exact ⟨by omega, fun u hu => by omega⟩
        · rw [if_neg c2] at h
          exact ⟨by omega, fun u hu => by omega⟩
  | false =>
    simp only [Bool.false_eq_true, if_false]
    constructor
    · rintro ⟨h1, h2⟩
      have a1 := h2 0 (by omega)
      have a2 := h2 (2 * (K : Int) - 1) (by omega)
      by_cases c1 : v < 0
      · rw [if_pos c1]; omega
      · rw [if_neg c1]
        by_cases c2 : ((2 * K - 1 : Nat) : Int) < v
        · rw [if_pos c2]; omega
        · rw [if_neg c2]
          have a3 := h2 v (by omega)
          omega
    · intro h
      by_cases c1 : v < 0
      · rw [if_pos c1] at h
        exact ⟨by omega, fun u hu => by omega⟩
      · rw [if_neg c1] at h
        by_cases c2 : ((2 * K - 1 : Nat) : Int) < v
        · rw [if_pos c2] at h
          exact ⟨by omega, fun u hu => by omega⟩
        · rw [if_neg c2] at h
          exact ⟨by omega, fun u hu => by omega⟩

/-- What is stored is read back. -/
theorem intAt_store {bytes : Nat} (hb : 0 < bytes) (signed : Bool) (mem : Mem) (a : Nat) {v : Int} (hv : InRange bytes signed v) :
    intAt (store mem a bytes (v % 256 ^ bytes).toNat) a bytes signed = v := by
  unfold intAt
  rw [← load_eq, load_store]
  obtain ⟨K, hK, e⟩ := pow_even hb
  have e2 := pow_cast bytes K e
  unfold InRange at hv
  rw [e2] at hv ⊢
  rw [e]
  have hm0 := Int.emod_nonneg v (b := 2 * (K : Int)) (by omega)
  have hm1 := Int.emod_lt_of_pos v (b := 2 * (K : Int)) (by omega)
  have hn : (v % (2 * (K : Int))).toNat % (2 * K) = (v % (2 * (K : Int))).toNat := Nat.mod_eq_of_lt (by omega)
  rw [hn]
  by_cases hneg : v < 0
  · cases signed with
    | false => simp at hv; omega
    | true =>
      simp only [if_true] at hv
      have h1 : v % (2 * (K : Int)) = v + 2 * K := by
        rw [← Int.add_emod_right, Int.emod_eq_of_lt (by omega) (by omega)]
      rw [h1]
      rw [if_pos ⟨rfl, by omega⟩]
      omega
  · have hlt : v < 2 * (K : Int) := by
      cases signed with
      | false => simp at hv; omega
      | true => simp at hv; omega
    rw [Int.emod_eq_of_lt (by omega) hlt]
    by_cases hs : signed = true
    · rw [hs] at hv
      simp only [if_true] at hv
      rw [if_neg (by omega)]
      omega
    · rw [if_neg (fun h => hs h.1)]
      omega

theorem number_load (mem : Mem) (a n : Nat) (signed : Bool) : number n signed (load mem a n) = intAt mem a n signed := by
  unfold number intAt
  rw [load_eq]

mutual
theorem frame : ∀ (d s : Ty) (mem : Mem) (da sa x : Nat), ¬ Holds d da x → (convert d s mem da sa).2 x = mem x
  | .int dw ds check, .int sw ss _, mem, da, sa, x, h => by
    simp only [convert]
    exact store_outside _ _ _ _ _ (by simpa [Holds] using h)
  | .struct dm, .struct sm, mem, da, sa, x, h => by
    simp only [convert]
    split
    · exact frameAll dm sm mem da sa x (by simpa [Holds] using h)
    · rfl
  | .int _ _ _, .struct _, _, _, _, _, _ => by simp only [convert]
  | .struct _, .int _ _ _, _, _, _, _, _ => by simp only [convert]
theorem frameAll : ∀ (dm sm : Members) (mem : Mem) (da sa x : Nat), ¬ HoldsAll dm da x → (convertMembers dm sm mem da sa).2 x = mem x
  | .cons od td rd, .cons os ts rs, mem, da, sa, x, h => by
    simp only [HoldsAll, not_or] at h
    simp only [convertMembers]
    split
    · rw [frameAll rd rs _ da sa x h.2, frame td ts mem (da + od) (sa + os) x h.1]
    · exact frame td ts mem (da + od) (sa + os) x h.1
  | .nil, .nil, _, _, _, _, _ => by simp only [convertMembers]
  | .nil, .cons _ _ _, _, _, _, _, _ => by simp only [convertMembers]
  | .cons _ _ _, .nil, _, _, _, _, _ => by simp only [convertMembers]
end

theorem count_of_become (mem : Mem) : ∀ (dm sm : Members) (sa : Nat) (ws : Vals), BecomeAll dm (valuesAt mem sm sa) ws → count sm = count dm
  | .nil, .nil, _, _, _ => rfl
  | .nil, .cons _ _ _, _, ws, h => by simp [valuesAt, BecomeAll] at h
  | .cons _ _ _, .nil, _, ws, h => by simp [valuesAt, BecomeAll] at h
  | .cons _ t rd, .cons _ _ rs, sa, ws, h => by
    cases ws with
    | nil => simp [valuesAt, BecomeAll] at h
    | cons w ws =>
      simp only [valuesAt, BecomeAll] at h
      simp only [count]
      rw [count_of_become mem rd rs sa ws h.2]

mutual
theorem main : ∀ (d s : Ty) (mem : Mem) (da sa : Nat), Laid d da → (∀ x, ¬ (Holds d da x ∧ Holds s sa x)) →
    ((convert d s mem da sa).1 = true → Becomes d (valueAt mem s sa) (valueAt (convert d s mem da sa).2 d da)) ∧
    ((∃ w, Becomes d (valueAt mem s sa) w) → (convert d s mem da sa).1 = true)
  | .int dw ds check, .int sw ss _, mem, da, sa, hl, _ => by
    simp only [Laid] at hl
    simp only [convert, valueAt]
    rw [number_load]
    have hn := (nearest_iff hl ds (intAt mem sa sw ss) _).2 rfl
    constructor
    · intro hc
      simp only [Becomes]
      rw [intAt_store hl ds mem da hn.1]
      exact ⟨hn, hc⟩
    · rintro ⟨w, hw⟩
      cases w with
      | struct _ => simp [Becomes] at hw
      | int w =>
        simp only [Becomes] at hw
        rw [← (nearest_iff hl ds _ _).1 hw.1]
        exact hw.2
  | .struct dm, .struct sm, mem, da, sa, hl, hd => by
    simp only [Laid] at hl
    simp only [Holds] at hd
    simp only [convert, valueAt]
    constructor
    · by_cases hc : count sm = count dm
      · rw [if_pos hc]
        intro h
        simp only [Becomes]
        exact (mainAll dm sm mem da sa hl hd hc).1 h
      · rw [if_neg hc]
        intro h
        simp at h
    · rintro ⟨w, hw⟩
      cases w with
      | int _ => simp [Becomes] at hw
      | struct ws =>
        simp only [Becomes] at hw
        have hc := count_of_become mem dm sm sa ws hw
        rw [if_pos hc]
        exact (mainAll dm sm mem da sa hl hd hc).2 ⟨ws, hw⟩
  | .int _ _ _, .struct _, _, _, _, _, _ => by
    simp only [convert, valueAt]
    constructor
    · intro h; simp at h
    · rintro ⟨w, hw⟩; cases w <;> simp [Becomes] at hw
  | .struct _, .int _ _ _, _, _, _, _, _ => by
    simp only [convert, valueAt]
    constructor
    · intro h; simp at h
    · rintro ⟨w, hw⟩; cases w <;> simp [Becomes] at hw
theorem mainAll : ∀ (dm sm : Members) (mem : Mem) (da sa : Nat), LaidAll dm da → (∀ x, ¬ (HoldsAll dm da x ∧ HoldsAll sm sa x)) → count sm = count dm →
    ((convertMembers dm sm mem da sa).1 = true → BecomeAll dm (valuesAt mem sm sa) (valuesAt (convertMembers dm sm mem da sa).2 dm da)) ∧
    ((∃ ws, BecomeAll dm (valuesAt mem sm sa) ws) → (convertMembers dm sm mem da sa).1 = true)
  | .nil, .nil, _, _, _, _, _, _ => by simp [convertMembers, valuesAt, BecomeAll]
  | .nil, .cons _ _ _, _, _, _, _, _, hc => by simp [count] at hc
  | .cons _ _ _, .nil, _, _, _, _, _, hc => by simp [count] at hc
  | .cons od td rd, .cons os ts rs, mem, da, sa, hl, hd, hc => by
    simp only [LaidAll] at hl
    simp only [HoldsAll] at hd
    simp only [count, Nat.add_right_cancel_iff] at hc
    have h1 := main td ts mem (da + od) (sa + os) hl.1 (fun x hx => hd x ⟨Or.inl hx.1, Or.inl hx.2⟩)
    have h2 := mainAll rd rs (convert td ts mem (da + od) (sa + os)).2 da sa hl.2.1 (fun x hx => hd x ⟨Or.inr hx.1, Or.inr hx.2⟩) hc
    have hs : valuesAt (convert td ts mem (da + od) (sa + os)).2 rs sa = valuesAt mem rs sa :=
      values_congr rs sa (fun x hx => frame td ts mem (da + od) (sa + os) x (fun hh => hd x ⟨Or.inl hh, Or.inr hx⟩))
    rw [hs] at h2
    simp only [convertMembers, valuesAt]
    by_cases hr : (convert td ts mem (da + od) (sa + os)).1 = true
    · rw [if_pos hr]
      have hv : valueAt (convertMembers rd rs (convert td ts mem (da + od) (sa + os)).2 da sa).2 td (da + od) =
          valueAt (convert td ts mem (da + od) (sa + os)).2 td (da + od) :=
        value_congr td (da + od) (fun x hx => frameAll rd rs _ da sa x (fun hh => hl.2.2 x ⟨hx, hh⟩))
      constructor
      · intro h
        simp only [BecomeAll]
        rw [hv]
        exact ⟨h1.1 hr, h2.1 h⟩
      · rintro ⟨ws, hw⟩
        cases ws with
        | nil => simp [BecomeAll] at hw
        | cons w ws =>
          simp only [BecomeAll] at hw
          exact h2.2 ⟨ws, hw.2⟩
    · rw [if_neg hr]
      constructor
      · intro h; exact absurd h hr
      · rintro ⟨ws, hw⟩
        cases ws with
        | nil => simp [BecomeAll] at hw
        | cons w ws =>
          simp only [BecomeAll] at hw
          exact absurd (h1.2 ⟨w, hw.1⟩) hr
end

end Verif.ObjConvert
