import Verif.Model.Select
import Verif.Spec.Select
/-!
# C129: waiting for handles
-/
set_option linter.unusedSimpArgs false
namespace Verif.Select
open Spec

/-- No descriptor above the highest, nor outside of the sets. -/
private def Inv (s : State) : Prop :=
  s.highest < 1024 ∧ -1 ≤ s.highest ∧ ∀ m d, s.sets m d = true → (d : Int) ≤ s.highest

private theorem inv_init : Inv init := ⟨by simp [init], by simp [init], by simp [init]⟩

private theorem add1_spec {m : Mode} {d : Int} {s : State} (hs : Inv s) (hd : d < 1024) :
    ∃ s' b, add1 m d s = some (s', b) ∧ Inv s' ∧ (b = true ↔ 0 ≤ d ∧ s.sets m d.toNat = false) ∧
      ∀ m' x, s'.sets m' x = true ↔ (m' = m ∧ d = x) ∨ s.sets m' x = true := by
  obtain ⟨h1, h2, h3⟩ := hs
  unfold add1 setSize
  by_cases h0 : 0 ≤ d
  · rw [if_pos h0, if_neg (by omega)]
    by_cases hb : s.sets m d.toNat = true
    · rw [if_pos hb]
      refine ⟨s, false, rfl, ⟨h1, h2, h3⟩, by simp [hb], ?_⟩
      intro m' x
      refine ⟨Or.inr, ?_⟩
      rintro (⟨rfl, rfl⟩ | h)
      · simpa using hb
      · exact h
    · rw [if_neg hb]
      refine ⟨_, true, rfl, ⟨?_, ?_, ?_⟩, by simp [h0, hb], ?_⟩
      · dsimp only; split <;> omega
      · dsimp only; split <;> omega
      · intro m' x hx
        dsimp only [put] at hx ⊢
        split at hx
        · next h => obtain ⟨_, rfl⟩ := h; split <;> omega
        · have := h3 _ _ hx; split <;> omega
      · intro m' x
        dsimp only [put]
        by_cases hc : m' = m ∧ x = d.toNat
        · rw [if_pos hc]
          obtain ⟨rfl, rfl⟩ := hc
          simp [Int.toNat_of_nonneg h0]
        · rw [if_neg hc]
          refine ⟨Or.inr, ?_⟩
          rintro (⟨rfl, rfl⟩ | h)
          · exact absurd ⟨rfl, by simp⟩ hc
          · exact h
  · rw [if_neg h0]
    refine ⟨s, false, rfl, ⟨h1, h2, h3⟩, by simp [h0], ?_⟩
    intro m' x
    refine ⟨Or.inr, ?_⟩
    rintro (⟨rfl, rfl⟩ | h)
    · omega
    · exact h

private theorem remove1_spec {m : Mode} {d : Int} {s : State} (hs : Inv s) (hd : d < 1024) :
    ∃ s' b, remove1 m d s = some (s', b) ∧ Inv s' ∧ (b = true ↔ 0 ≤ d ∧ s.sets m d.toNat = true) ∧
      ∀ m' x, s'.sets m' x = true ↔ ¬ (m' = m ∧ d = x) ∧ s.sets m' x = true := by
  obtain ⟨h1, h2, h3⟩ := hs
  unfold remove1 setSize
  by_cases h0 : 0 ≤ d
  · rw [if_pos h0, if_neg (by omega)]
    by_cases hb : s.sets m d.toNat = true
    · rw [if_pos hb]
      refine ⟨_, true, rfl, ⟨h1, h2, ?_⟩, by simp [h0, hb], ?_⟩
      · intro m' x hx
        dsimp only [put] at hx ⊢
        split at hx
        · simp at hx
        · exact h3 _ _ hx
      · intro m' x
        dsimp only [put]
        by_cases hc : m' = m ∧ x = d.toNat
        · rw [if_pos hc]
          obtain ⟨rfl, rfl⟩ := hc
          simp [Int.toNat_of_nonneg h0]
        · rw [if_neg hc]
          refine ⟨fun h => ⟨?_, h⟩, fun h => h.2⟩
          rintro ⟨rfl, rfl⟩
          exact hc ⟨rfl, by simp⟩
    · rw [if_neg hb]
      refine ⟨s, false, rfl, ⟨h1, h2, h3⟩, by simp [hb], ?_⟩
      intro m' x
      refine ⟨fun h => ⟨?_, h⟩, fun h => h.2⟩
      rintro ⟨rfl, rfl⟩
      exact hb (by simpa using h)
  · rw [if_neg h0]
    refine ⟨s, false, rfl, ⟨h1, h2, h3⟩, by simp [h0], ?_⟩
    intro m' x
    refine ⟨fun h => ⟨?_, h⟩, fun h => h.2⟩
    rintro ⟨rfl, rfl⟩
    omega

/-- The descriptors of a handle in a mode. -/
private def Part (m : Mode) (h : Handle) (d : Int) : Prop :=
  match m with
  | .read => d = h.read
  | .write => d = h.write
  | .exception => d = h.read ∨ d = h.write

private theorem uses_part {m : Mode} {h : Handle} {x : Nat} : uses m h x ↔ Part m h x := by
  cases m <;> simp [uses, Part, eq_comm]

private theorem add_spec {m : Mode} {h : Handle} {s : State} (hs : Inv s) (hu : usable (.add m h)) :
    ∃ s' b, add m h s = some (s', b) ∧ Inv s' ∧ (b = true ↔ ∀ d, Part m h d → 0 ≤ d ∧ s.sets m d.toNat = false) ∧
      ∀ m' x, s'.sets m' x = true ↔ (m = m' ∧ uses m' h x) ∨ s.sets m' x = true := by
  obtain ⟨u1, u2⟩ := hu
  cases m with
  | read =>
    obtain ⟨s', b, e, i, r, w⟩ := add1_spec (m := .read) hs (u1 (by simp))
    refine ⟨s', b, e, i, by simpa [Part] using r, ?_⟩
    intro m' x
    rw [w]
    constructor
    · rintro (⟨rfl, h⟩ | h)
      · exact Or.inl ⟨rfl, h⟩
      · exact Or.inr h
    · rintro (⟨rfl, h⟩ | h)
      · exact Or.inl ⟨rfl, h⟩
      · exact Or.inr h
  | write =>
    obtain ⟨s', b, e, i, r, w⟩ := add1_spec (m := .write) hs (u2 (by simp))
    refine ⟨s', b, e, i, by simpa [Part] using r, ?_⟩
    intro m' x
    rw [w]
    constructor
    · rintro (⟨rfl, h⟩ | h)
      · exact Or.inl ⟨rfl, h⟩
      · exact Or.inr h
    · rintro (⟨rfl, h⟩ | h)
      · exact Or.inl ⟨rfl, h⟩
      · exact Or.inr h
  | exception =>
    obtain ⟨s1, b1, e1, i1, r1, w1⟩ := add1_spec (m := .exception) hs (u1 (by simp))
    unfold add both
    simp only [e1]
    by_cases hne : h.read ≠ h.write
    · rw [if_pos hne]
      obtain ⟨s2, b2, e2, i2, r2, w2⟩ := add1_spec (m := .exception) i1 (u2 (by simp))
      simp only [e2]
      refine ⟨s2, b1 && b2, rfl, i2, ?_, ?_⟩
      · rw [Bool.and_eq_true, r1, r2]
        constructor
        · rintro ⟨⟨p1, q1⟩, p2, q2⟩ d (rfl | rfl)
          · exact ⟨p1, q1⟩
          · refine ⟨p2, ?_⟩
            cases hx : s.sets .exception h.write.toNat with
            | false => rfl
            | true => rw [((w1 _ _).2 (Or.inr hx))] at q2; simp at q2
        · intro hall
          have ha := hall _ (Or.inl rfl)
          have hb := hall _ (Or.inr rfl)
          refine ⟨ha, hb.1, ?_⟩
          cases hx : s1.sets .exception h.write.toNat with
          | false => rfl
          | true =>
            rcases (w1 _ _).1 hx with ⟨_, h'⟩ | h'
            · omega
            · rw [hb.2] at h'; simp at h'
      · intro m' x
        rw [w2, w1]
        constructor
        · rintro (⟨rfl, h⟩ | ⟨rfl, h⟩ | h)
          · exact Or.inl ⟨rfl, Or.inr h⟩
          · exact Or.inl ⟨rfl, Or.inl h⟩
          · exact Or.inr h
        · rintro (⟨rfl, h | h⟩ | h)
          · exact Or.inr (Or.inl ⟨rfl, h⟩)
          · exact Or.inl ⟨rfl, h⟩
          · exact Or.inr (Or.inr h)
    · rw [if_neg hne]
      have hne : h.read = h.write := by omega
      refine ⟨s1, b1, rfl, i1, ?_, ?_⟩
      · rw [r1]; simp [Part, ← hne]
      · intro m' x
        rw [w1]
        constructor
        · rintro (⟨rfl, h⟩ | h)
          · exact Or.inl ⟨rfl, Or.inl h⟩
          · exact Or.inr h
        · rintro (⟨rfl, h | h⟩ | h)
          · exact Or.inl ⟨rfl, h⟩
          · exact Or.inl ⟨rfl, hne ▸ h⟩
          · exact Or.inr h

private theorem remove_spec {m : Mode} {h : Handle} {s : State} (hs : Inv s) (hu : usable (.remove m h)) :
    ∃ s' b, remove m h s = some (s', b) ∧ Inv s' ∧ (b = true ↔ ∀ d, Part m h d → 0 ≤ d ∧ s.sets m d.toNat = true) ∧
      ∀ m' x, s'.sets m' x = true ↔ ¬ (m = m' ∧ uses m' h x) ∧ s.sets m' x = true := by
  obtain ⟨u1, u2⟩ := hu
  cases m with
  | read =>
    obtain ⟨s', b, e, i, r, w⟩ := remove1_spec (m := .read) hs (u1 (by simp))
    refine ⟨s', b, e, i, by simpa [Part] using r, ?_⟩
    intro m' x
    rw [w]
    refine and_congr (not_congr ⟨?_, ?_⟩) Iff.rfl
    · rintro ⟨rfl, h⟩; exact ⟨rfl, h⟩
    · rintro ⟨rfl, h⟩; exact ⟨rfl, h⟩
  | write =>
    obtain ⟨s', b, e, i, r, w⟩ := remove1_spec (m := .write) hs (u2 (by simp))
    refine ⟨s', b, e, i, by simpa [Part] using r, ?_⟩
    intro m' x
    rw [w]
    refine and_congr (not_congr ⟨?_, ?_⟩) Iff.rfl
    · rintro ⟨rfl, h⟩; exact ⟨rfl, h⟩
    · rintro ⟨rfl, h⟩; exact ⟨rfl, h⟩
  | exception =>
    obtain ⟨s1, b1, e1, i1, r1, w1⟩ := remove1_spec (m := .exception) hs (u1 (by simp))
    unfold remove both
    simp only [e1]
    by_cases hne : h.read ≠ h.write
    · rw [if_pos hne]
      obtain ⟨s2, b2, e2, i2, r2, w2⟩ := remove1_spec (m := .exception) i1 (u2 (by simp))
      simp only [e2]
      refine ⟨s2, b1 && b2, rfl, i2, ?_, ?_⟩
      · rw [Bool.and_eq_true, r1, r2, w1]
        constructor
        · rintro ⟨⟨p1, q1⟩, p2, q2⟩ d (rfl | rfl)
          · exact ⟨p1, q1⟩
          · exact ⟨p2, q2.2⟩
        · intro hall
          have ha := hall _ (Or.inl rfl)
          have hb := hall _ (Or.inr rfl)
          refine ⟨ha, hb.1, ?_, hb.2⟩
          rintro ⟨_, h'⟩
          have := hb.1
          omega
      · intro m' x
        rw [w2, w1]
        constructor
        · rintro ⟨ha, hb, hc⟩
          refine ⟨?_, hc⟩
          rintro ⟨rfl, h | h⟩
          · exact hb ⟨rfl, h⟩
          · exact ha ⟨rfl, h⟩
        · rintro ⟨ha, hc⟩
          exact ⟨fun ⟨e, h⟩ => ha (by subst e; exact ⟨rfl, Or.inr h⟩), fun ⟨e, h⟩ => ha (by subst e; exact ⟨rfl, Or.inl h⟩), hc⟩
    · rw [if_neg hne]
      have hne : h.read = h.write := by omega
      refine ⟨s1, b1, rfl, i1, ?_, ?_⟩
      · rw [r1]; simp [Part, ← hne]
      · intro m' x
        rw [w1]
        refine and_congr (not_congr ⟨?_, ?_⟩) Iff.rfl
        · rintro ⟨rfl, h⟩; exact ⟨rfl, Or.inl h⟩
        · rintro ⟨rfl, h | h⟩
          · exact ⟨rfl, h⟩
          · exact ⟨rfl, hne ▸ h⟩

private theorem lower_spec (sets : Sets) : ∀ n : Nat, -1 ≤ lower sets n ∧ lower sets n < n ∧
    (∀ d : Nat, d < n → anySet sets d = true → (d : Int) ≤ lower sets n) ∧ (0 ≤ lower sets n → anySet sets (lower sets n).toNat = true)
  | 0 => by simp [lower]
  | n + 1 => by
    obtain ⟨h1, h2, h3, h4⟩ := lower_spec sets n
    unfold lower
    by_cases h : anySet sets n = true
    · rw [if_pos h]
      refine ⟨by omega, by omega, fun d hd _ => by omega, fun _ => by simpa using h⟩
    · rw [if_neg h]
      refine ⟨h1, by omega, ?_, h4⟩
      intro d hd hx
      by_cases hdn : d = n
      · exact absurd (hdn ▸ hx) h
      · exact h3 d (by omega) hx

private theorem any_iff {sets : Sets} {d : Nat} : anySet sets d = true ↔ ∃ m, sets m d = true := by
  unfold anySet
  constructor
  · intro h
    simp at h
    rcases h with (h | h) | h
    · exact ⟨_, h⟩
    · exact ⟨_, h⟩
    · exact ⟨_, h⟩
  · rintro ⟨m, h⟩
    cases m <;> simp [h]

private theorem lower_inv {s : State} (hs : Inv s) : -1 ≤ lower s.sets (s.highest + 1).toNat ∧ lower s.sets (s.highest + 1).toNat < 1024 ∧
    (∀ m d, s.sets m d = true → (d : Int) ≤ lower s.sets (s.highest + 1).toNat) ∧
    (0 ≤ lower s.sets (s.highest + 1).toNat → ∃ m, s.sets m (lower s.sets (s.highest + 1).toNat).toNat = true) := by
  obtain ⟨a, b, c⟩ := hs
  obtain ⟨h1, h2, h3, h4⟩ := lower_spec s.sets (s.highest + 1).toNat
  refine ⟨h1, by omega, ?_, fun h => any_iff.1 (h4 h)⟩
  intro m d hd
  have := c m d hd
  exact h3 d (by omega) (any_iff.2 ⟨m, hd⟩)

private theorem wait_sets {t : Option Nat} {answer : Int} {ready : Sets} {s : State} (hs : Inv s) :
    Inv (wait t answer ready s).1 ∧
    ∀ m d, (wait t answer ready s).1.sets m d = true ↔ s.sets m d = true ∧ (answer < 0 ∨ ready m d = true) := by
  obtain ⟨h1, h2, h3, h4⟩ := lower_inv hs
  unfold wait
  dsimp only
  by_cases hn : lower s.sets (s.highest + 1).toNat < 0
  · rw [if_pos hn]
    refine ⟨⟨h2, h1, h3⟩, ?_⟩
    intro m d
    refine ⟨fun h => ?_, fun h => h.1⟩
    have := h3 m d h
    omega
  · rw [if_neg hn]
    by_cases ha : answer < 0
    · simp only [ha, if_true]
      exact ⟨⟨h2, h1, h3⟩, by simp⟩
    · simp only [ha, if_false]
      refine ⟨⟨h2, h1, ?_⟩, by simp⟩
      intro m d h
      simp at h
      exact h3 m d h.1

private theorem step_spec {s : State} (hs : Inv s) {op : Op} (hu : usable op) {ops : List Op}
    (hw : ∀ m d, s.sets m d = true ↔ watched m d ops) :
    ∃ s' r, step s op = some (s', r) ∧ Inv s' ∧ ∀ m d, s'.sets m d = true ↔ watched m d (op :: ops) := by
  cases op with
  | add m h =>
    obtain ⟨s', b, e, i, _, w⟩ := add_spec hs hu
    refine ⟨s', .bool b, by simp [step, e], i, ?_⟩
    intro m' d
    rw [w, hw]
    rfl
  | remove m h =>
    obtain ⟨s', b, e, i, _, w⟩ := remove_spec hs hu
    refine ⟨s', .bool b, by simp [step, e], i, ?_⟩
    intro m' d
    rw [w, hw]
    rfl
  | clear => exact ⟨clear, .done, rfl, ⟨by simp [clear], by simp [clear], by simp [clear]⟩, by simp [clear, watched]⟩
  | isSet h =>
    obtain ⟨⟨a, b⟩, c, d⟩ := hu
    have hdef : ∃ r, isSet h s = some r := by
      unfold isSet setSize
      simp only [a, b, c, d, and_self, if_true]
      split
      · exact ⟨_, rfl⟩
      · split <;> exact ⟨_, rfl⟩
    obtain ⟨r, hr⟩ := hdef
    exact ⟨s, .bool r, by simp [step, hr], hs, fun m d => by rw [hw]; rfl⟩
  | wait t answer ready =>
    obtain ⟨i, w⟩ := wait_sets (t := t) (answer := answer) (ready := ready) hs
    refine ⟨_, _, rfl, i, ?_⟩
    intro m d
    rw [w, hw]
    rfl

private theorem run_spec : ∀ {ops : List Op} {s : State} {before : List Op}, Inv s → (∀ m d, s.sets m d = true ↔ watched m d before) →
    (∀ op ∈ ops, usable op) → ∃ s', run s ops = some s' ∧ Inv s' ∧ ∀ m d, s'.sets m d = true ↔ watched m d (ops.reverse ++ before)
  | [], s, before, hs, hw, _ => ⟨s, rfl, hs, by simpa using hw⟩
  | op :: ops, s, before, hs, hw, hu => by
    obtain ⟨s1, r, e, i, w⟩ := step_spec hs (hu op (by simp)) hw
    obtain ⟨s2, e2, i2, w2⟩ := run_spec i w (fun o ho => hu o (List.mem_cons_of_mem _ ho))
    refine ⟨s2, by simp [run, e, e2], i2, ?_⟩
    intro m d
    rw [w2]
    simp

/-- **C129.** After any history the descriptors that are watched are those that were added and not removed since, and that were ready in the waits since. -/
theorem c129_history_partial {ops : List Op} (hu : ∀ op ∈ ops, usable op) :
    ∃ s, run init ops = some s ∧ ∀ m d, s.sets m d = true ↔ watched m d ops.reverse := by
  obtain ⟨s, e, _, w⟩ := run_spec (before := []) inv_init (by simp [init, watched]) hu
  exact ⟨s, e, by simpa using w⟩

/-- **C129.** The answers: a handle is added exactly when all its descriptors in the mode are valid and none is watched in it, it is removed exactly when all
are watched, and it is set exactly when one of its descriptors is watched in some mode. -/
theorem c129_answers {ops : List Op} (hu : ∀ op ∈ ops, usable op) {s : State} (hs : run init ops = some s) (m : Mode) (h : Handle) :
    (usable (.add m h) → ∃ s' b, step s (.add m h) = some (s', .bool b) ∧
      (b = true ↔ ((m ≠ .write → 0 ≤ h.read) ∧ (m ≠ .read → 0 ≤ h.write)) ∧ ∀ d : Nat, uses m h d → ¬ watched m d ops.reverse)) ∧
    (usable (.remove m h) → ∃ s' b, step s (.remove m h) = some (s', .bool b) ∧
      (b = true ↔ ((m ≠ .write → 0 ≤ h.read) ∧ (m ≠ .read → 0 ≤ h.write)) ∧ ∀ d : Nat, uses m h d → watched m d ops.reverse)) ∧
    (valid h → ∃ b, step s (.isSet h) = some (s, .bool b) ∧
      (b = true ↔ ∃ m' : Mode, ∃ d : Nat, (h.read = d ∨ h.write = d) ∧ watched m' d ops.reverse)) := by
  obtain ⟨s0, e, i, w⟩ := run_spec (before := []) inv_init (by simp [init, watched]) hu
  rw [hs] at e
  cases e
  simp only [List.append_nil] at w
  have hpart : ∀ P : Nat → Prop, (∀ d, Part m h d → 0 ≤ d ∧ P d.toNat) ↔
      ((m ≠ .write → 0 ≤ h.read) ∧ (m ≠ .read → 0 ≤ h.write)) ∧ ∀ d : Nat, uses m h d → P d := by
    intro P
    constructor
    · intro hall
      refine ⟨⟨?_, ?_⟩, fun d hd => by simpa using (hall d (uses_part.1 hd)).2⟩
      · intro hm
        refine (hall h.read ?_).1
        cases m <;> simp_all [Part]
      · intro hm
        refine (hall h.write ?_).1
        cases m <;> simp_all [Part]
    · rintro ⟨⟨h1, h2⟩, hall⟩ d hd
      have h0 : 0 ≤ d := by
        cases m <;> simp [Part] at hd h1 h2
        · omega
        · omega
        · rcases hd with rfl | rfl <;> omega
      refine ⟨h0, hall _ (uses_part.2 ?_)⟩
      rw [Int.toNat_of_nonneg h0]
      exact hd
  refine ⟨?_, ?_, ?_⟩
  · intro hv
    obtain ⟨s', b, e, _, r, _⟩ := add_spec i hv
    refine ⟨s', b, by simp [step, e], ?_⟩
    rw [r, hpart (fun d => s.sets m d = false)]
    refine and_congr Iff.rfl (forall_congr' fun d => ?_)
    rw [← w]
    simp
  · intro hv
    obtain ⟨s', b, e, _, r, _⟩ := remove_spec i hv
    refine ⟨s', b, by simp [step, e], ?_⟩
    rw [r, hpart (fun d => s.sets m d = true)]
    refine and_congr Iff.rfl (forall_congr' fun d => ?_)
    rw [← w]
  · rintro ⟨⟨a, b⟩, c, d⟩
    have hr : isSet h s = some (anySet s.sets h.read.toNat || anySet s.sets h.write.toNat) := by
      unfold isSet setSize
      simp only [a, b, c, d, and_self, if_true]
      by_cases h1 : anySet s.sets h.read.toNat = true
      · simp [h1]
      · by_cases h2 : h.write = h.read
        · simp [h2, h1]
        · simp [h2, h1]
    refine ⟨_, by simp [step, hr]; rfl, ?_⟩
    rw [Bool.or_eq_true, any_iff, any_iff]
    constructor
    · rintro (⟨m', h'⟩ | ⟨m', h'⟩)
      · exact ⟨m', h.read.toNat, Or.inl (by omega), (w _ _).1 h'⟩
      · exact ⟨m', h.write.toNat, Or.inr (by omega), (w _ _).1 h'⟩
    · rintro ⟨m', x, hx | hx, h'⟩
      · exact Or.inl ⟨m', (w _ _).2 (by rw [hx]; simpa using h')⟩
      · exact Or.inr ⟨m', (w _ _).2 (by rw [hx]; simpa using h')⟩

/-- **C129.** A wait asks the operating system exactly when something is watched, for exactly the descriptors that are watched, all of which are below the
limit, which is the least possible; it gives the time of the timeout, when this is below 2³¹ seconds, and answers what the operating system answered. -/
theorem c129_wait_partial {ops : List Op} (hu : ∀ op ∈ ops, usable op) {s : State} (hs : run init ops = some s) (timeout : Option Nat) (answer : Int)
    (ready : Sets) (ht : ∀ t ∈ timeout, t < 2147483648000000) :
    ((∃ m d, watched m d ops.reverse) → ∃ s' call, step s (.wait timeout answer ready) = some (s', .number answer (some call)) ∧
      (∀ m d, call.sets m d = true ↔ watched m d ops.reverse) ∧
      (∀ m d, watched m d ops.reverse → (d : Int) < call.limit) ∧ (∃ m d, watched m d ops.reverse ∧ call.limit = d + 1) ∧
      (timeout = none → call.time = none) ∧
      ∀ t ∈ timeout, ∃ sec usec : Int, call.time = some (sec, usec) ∧ sec * 1000000 + usec = t ∧ 0 ≤ usec ∧ usec < 1000000) ∧
    ((¬ ∃ m d, watched m d ops.reverse) → ∃ s', step s (.wait timeout answer ready) = some (s', .number (-1) none)) := by
  obtain ⟨s0, e, i, w⟩ := run_spec (before := []) inv_init (by simp [init, watched]) hu
  rw [hs] at e
  cases e
  simp only [List.append_nil] at w
  obtain ⟨h1, h2, h3, h4⟩ := lower_inv i
  constructor
  · rintro ⟨m, d, hd⟩
    have hd' := h3 m d ((w m d).2 hd)
    have hn : ¬ lower s.sets (s.highest + 1).toNat < 0 := by omega
    simp only [step, wait, if_neg hn]
    refine ⟨_, _, rfl, w, ?_, ?_, ?_, ?_⟩
    · intro m' d' h'
      have := h3 m' d' ((w m' d').2 h')
      dsimp only
      omega
    · obtain ⟨m', h'⟩ := h4 (by omega)
      exact ⟨m', _, (w _ _).1 h', by dsimp only; omega⟩
    · rintro rfl; rfl
    · intro t ht'
      have hlt := ht t ht'
      cases timeout with
      | none => simp at ht'
      | some t' =>
        simp at ht'
        subst ht'
        refine ⟨(t' / 1000000 : Nat), (t' % 1000000 : Nat), ?_, by omega, by omega, by omega⟩
        have e1 : int32 (t' / 1000000) = (t' / 1000000 : Nat) := by unfold int32; rw [if_pos (by omega)]; omega
        have e2 : int32 (t' % 1000000) = (t' % 1000000 : Nat) := by unfold int32; rw [if_pos (by omega)]; omega
        simp only [Option.map_some, time, e1, e2]
  · intro hno
    have hn : lower s.sets (s.highest + 1).toNat < 0 := by
      rcases Int.lt_or_le (lower s.sets (s.highest + 1).toNat) 0 with h | h
      · exact h
      · obtain ⟨m, hm⟩ := h4 h
        exact absurd ⟨m, _, (w _ _).1 hm⟩ hno
    simp only [step, wait, if_pos hn]
    exact ⟨_, rfl⟩

/-- **C129.** Without waits, the descriptors that are watched are those that the program added. -/
theorem c129_no_wait (ops : List Op) (h : ∀ op ∈ ops, ∀ t a r, op ≠ .wait t a r) (m : Mode) (d : Nat) : watched m d ops ↔ added m d ops := by
  induction ops with
  | nil => exact Iff.rfl
  | cons op ops ih =>
    have ih := ih (fun o ho => h o (List.mem_cons_of_mem _ ho))
    cases op with
    | wait t a r => exact absurd rfl (h _ (by simp) t a r)
    | _ => simp [watched, added, ih]

/-- **C129 fails after a wait**: a descriptor that a wait did not find ready is not watched by the next one, which does not even ask the operating system. -/
theorem c129_again_fails {h : Handle} (hr : inRange h.read) (t1 t2 : Option Nat) (answer : Int) (ready : Sets) :
    ∃ s s', run init [.add .read h, .wait t1 0 fun _ _ => false] = some s ∧
      added .read h.read.toNat [.wait t1 0 fun _ _ => false, .add .read h] ∧
      step s (.wait t2 answer ready) = some (s', .number (-1) none) := by
  have hu : ∀ op ∈ [Op.add .read h, .wait t1 0 fun _ _ => false], usable op := by
    intro op hop
    simp at hop
    rcases hop with rfl | rfl
    · exact ⟨fun _ => hr.2, by simp⟩
    · trivial
  obtain ⟨s, e, w⟩ := c129_history_partial hu
  have hno : ¬ ∃ m d, watched m d [Op.add .read h, .wait t1 0 fun _ _ => false].reverse := by
    rintro ⟨m, d, h'⟩
    simp [watched] at h'
  obtain ⟨s0, e0, i, w0⟩ := run_spec (before := []) inv_init (by simp [init, watched]) hu
  rw [e] at e0
  cases e0
  obtain ⟨h1, h2, h3, h4⟩ := lower_inv i
  have hn : lower s.sets (s.highest + 1).toNat < 0 := by
    rcases Int.lt_or_le (lower s.sets (s.highest + 1).toNat) 0 with h | h
    · exact h
    · obtain ⟨m, hm⟩ := h4 h
      exact absurd ⟨m, _, (w _ _).1 hm⟩ hno
  refine ⟨s, { s with highest := lower s.sets (s.highest + 1).toNat }, e, Or.inl ⟨rfl, ?_⟩, by simp only [step, wait, if_pos hn]⟩
  show h.read = _
  have := hr.1
  omega

/-- **C129 fails for a handle in two modes**: after it is removed from one it is still set, although the interface says that it is not. -/
theorem c129_remove_fails : ∃ s, run init [.add .read ⟨3, 3⟩, .add .write ⟨3, 3⟩, .remove .read ⟨3, 3⟩] = some s ∧
    isSet ⟨3, 3⟩ s = some true := ⟨_, rfl, by decide⟩

/-- **C129 fails for large descriptors**: from 1024 on, to add one writes outside of the sets. -/
theorem c129_large_fails (m : Mode) (h : Handle) (s : State) (hr : 1024 ≤ h.read) (hw : 1024 ≤ h.write) : step s (.add m h) = none := by
  have h1 : ∀ m' : Mode, ∀ d : Int, 1024 ≤ d → add1 m' d s = none := by
    intro m' d hd
    unfold add1 setSize
    rw [if_pos (by omega), if_pos hd]
  cases m <;> simp [step, add, both, h1 _ _ hr, h1 _ _ hw]

/-- **C129 fails for descriptors of 1024 and more** also when they are removed: the memory after the set is changed. -/
theorem c129_large_remove_fails (m : Mode) (h : Handle) (s : State) (hr : 1024 ≤ h.read) (hw : 1024 ≤ h.write) : step s (.remove m h) = none := by
  have h1 : ∀ m' : Mode, ∀ d : Int, 1024 ≤ d → remove1 m' d s = none := by
    intro m' d hd
    unfold remove1 setSize
    rw [if_pos (by omega), if_pos hd]
  cases m <;> simp [step, remove, both, h1 _ _ hr, h1 _ _ hw]

/-- **C129 fails for timeouts of 2³¹ seconds and more** (below 2³²): the time that is given to the operating system is negative. -/
theorem c129_long_fails (sec : Nat) (h1 : 2 ^ 31 ≤ sec) (h2 : sec < 2 ^ 32) :
    ∃ s s' call, run init [.add .read ⟨7, 7⟩] = some s ∧ step s (.wait (some (sec * 1000000)) 1 fun _ _ => true) = some (s', .number 1 (some call)) ∧
      call.time = some ((sec : Int) - 2 ^ 32, 0) := by
  refine ⟨_, _, _, rfl, rfl, ?_⟩
  have e : time (sec * 1000000) = ((sec : Int) - 2 ^ 32, 0) := by
    unfold time int32
    have e1 : sec * 1000000 / 1000000 = sec := by omega
    have e2 : sec * 1000000 % 1000000 = 0 := by omega
    have e3 : sec % 4294967296 = sec := by omega
    rw [e1, e2, e3, if_neg (by omega)]
    simp
  show some (time _) = _
  rw [e]

/-- **C129 fails for a handle that is refused**: one whose first descriptor is not valid is refused, and its second one is watched. -/
theorem c129_refused_fails : ∃ s, step init (.add .exception ⟨-1, 5⟩) = some (s, .bool false) ∧ s.sets .exception 5 = true := ⟨_, rfl, by decide⟩

/-- Two handles are added, one is removed, and the wait is asked for the other. -/
example : ∃ s s' call, run init [.add .read ⟨7, 8⟩, .add .exception ⟨2, 4⟩, .remove .read ⟨7, 8⟩] = some s ∧
    step s (.wait (some 2500000) 1 fun _ _ => true) = some (s', .number 1 (some call)) ∧ call.limit = 5 ∧ call.time = some (2, 500000) :=
  ⟨_, _, _, rfl, rfl, by decide, by decide⟩

end Verif.Select
