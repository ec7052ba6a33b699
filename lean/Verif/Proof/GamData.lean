import Verif.Spec.GamData
namespace Verif.GamData
open Verif.Spec.GamData

theorem start_zero (m : Bool) (sigs : List Sig) : start m sigs 0 = 0 := by simp [start]

theorem start_succ (m : Bool) (sigs : List Sig) (k : Nat) (s : Sig) (h : sigs[k]? = some s) : start m sigs (k + 1) = start m sigs k + room m s := by
  unfold start
  rw [List.take_add_one, h]
  simp

theorem start_mono (m : Bool) (sigs : List Sig) {i j : Nat} (h : i ≤ j) : start m sigs i ≤ start m sigs j := by
  induction j with
  | zero => rw [Nat.le_zero.mp h]; exact Nat.le_refl _
  | succ j ih =>
    rcases Nat.eq_or_lt_of_le h with e | e
    · rw [e]; exact Nat.le_refl _
    · refine Nat.le_trans (ih (by omega)) ?_
      cases hs : sigs[j]? with
      | none =>
        unfold start
        rw [List.take_of_length_le (by rw [List.getElem?_eq_none_iff] at hs; exact hs), List.take_of_length_le (by rw [List.getElem?_eq_none_iff] at hs; omega)]
        exact Nat.le_refl _
      | some s => rw [start_succ m sigs j s hs]; omega

theorem start_all (m : Bool) (sigs : List Sig) {j : Nat} (h : j ≤ sigs.length) : start m sigs j ≤ (sigs.map (room m)).sum := by
  have := start_mono m sigs h
  rwa [show start m sigs sigs.length = (sigs.map (room m)).sum by unfold start; rw [List.take_length]] at this

theorem start_cons (m : Bool) (s : Sig) (sigs : List Sig) (k : Nat) : start m (s :: sigs) (k + 1) = room m s + start m sigs k := by
  simp [start]

theorem sigSize_room {m : Bool} {s : Sig} (h : room m s < 2 ^ 32) : sigSize m s = room m s := by
  unfold sigSize room at *
  split
  · rename_i hm; rw [if_pos hm] at h; exact Nat.mod_eq_of_lt h
  · rfl

theorem layout_spec (m : Bool) : ∀ (sigs : List Sig) (acc : Nat), acc + (sigs.map (room m)).sum < 2 ^ 32 →
    ((∃ s, s ∈ sigs ∧ room m s = 0) ∧ layout m sigs acc = none) ∨
    ((∀ s, s ∈ sigs → 0 < room m s) ∧
      layout m sigs acc = some ((List.range sigs.length).map (fun k => acc + start m sigs k), acc + (sigs.map (room m)).sum))
  | [], acc, _ => Or.inr ⟨by simp, by simp [layout]⟩
  | s :: sigs, acc, h => by
    simp only [List.map_cons, List.sum_cons] at h
    rw [layout, sigSize_room (by omega), Nat.mod_eq_of_lt (by omega)]
    by_cases h0 : room m s = 0
    · exact Or.inl ⟨⟨s, by simp, h0⟩, by rw [if_neg (by omega)]⟩
    · rw [if_pos (by omega)]
      rcases layout_spec m sigs (acc + room m s) (by omega) with ⟨⟨x, hx, e⟩, h1⟩ | ⟨h1, h2⟩
      · exact Or.inl ⟨⟨x, by simp [hx], e⟩, by rw [h1]; rfl⟩
      · refine Or.inr ⟨fun x hx => ?_, ?_⟩
        · rcases List.mem_cons.mp hx with e | e
          · rw [e]; omega
          · exact h1 x e
        · rw [h2]
          simp only [Option.map_some, List.length_cons, List.map_cons, List.sum_cons, Option.some.injEq, Prod.mk.injEq]
          refine ⟨?_, by omega⟩
          rw [List.range_succ_eq_map, List.map_cons, List.map_map, start_zero, Nat.add_zero]
          congr 1
          apply List.map_congr_left
          intro k _
          simp only [Function.comp_apply]
          rw [start_cons]; omega

/-- The block is laid out. -/
structure Laid (ds : Ds) : Prop where
  off : ∀ k, k < ds.sigs.length → ds.offsets[k]? = some (start ds.multiple ds.sigs k)
  len : ds.mem.length = (ds.sigs.map (room ds.multiple)).sum
  samples : ds.multiple = true → ∀ s, s ∈ ds.sigs → 0 < s.samples

theorem room_le {m : Bool} {s : Sig} (h : m = true → 0 < s.samples) : s.bytes ≤ room m s := by
  unfold room
  split
  · rename_i hm; exact Nat.le_mul_of_pos_right _ (h hm)
  · exact Nat.le_refl _

theorem drop_take_mid (a b : List Nat) (c : List Nat) (i n : Nat) (h : i + n ≤ a.length) : ((a ++ b ++ c).drop i).take n = (a.drop i).take n := by
  rw [List.append_assoc, List.drop_append_of_le_length (by omega), List.take_append_of_le_length (by rw [List.length_drop]; omega)]

/-- What a write does to a piece of the block. -/
theorem write_spec {mem : List Nat} {off : Nat} {b : List Nat} (h : off + b.length ≤ mem.length) :
    ∃ m, write mem off b = some m ∧ m.length = mem.length ∧
      (∀ i n, i + n ≤ off ∨ off + b.length ≤ i → (m.drop i).take n = (mem.drop i).take n) ∧
      (∀ n, b.length ≤ n → (m.drop off).take n = b ++ ((mem.drop off).take n).drop b.length) := by
  refine ⟨_, if_pos h, ?_, ?_, ?_⟩
  · simp; omega
  · intro i n hc
    rcases hc with hc | hc
    · rw [drop_take_mid _ _ _ _ _ (by rw [List.length_take]; omega), List.drop_take, List.take_take]
      congr 1; omega
    · rw [List.drop_append, List.drop_eq_nil_of_le (by simp; omega), List.nil_append, List.drop_drop]
      congr 2
      simp; omega
  · intro n hn
    rw [List.append_assoc, List.drop_append, List.drop_eq_nil_of_le (by simp; omega), List.nil_append, List.length_take,
      Nat.min_eq_left (by omega), Nat.sub_self, List.drop_zero, List.take_append, List.take_of_length_le hn, List.drop_take,
      List.drop_drop]

/-- What the change of state leaves in a signal. -/
def after (s : Sig) (c : List Nat) : List Nat := initial s ++ c.drop s.bytes

theorem initial_length {sigs : List Sig} (hd : DefaultsFit sigs) {s : Sig} (hs : s ∈ sigs) : (initial s).length = s.bytes := by
  unfold initial
  split
  · rename_i b e; exact hd s hs b e
  · simp

theorem after_after {sigs : List Sig} (hd : DefaultsFit sigs) {s : Sig} (hs : s ∈ sigs) (c : List Nat) : after s (after s c) = after s c := by
  unfold after
  rw [List.drop_append, initial_length hd hs, List.drop_eq_nil_of_le (by rw [initial_length hd hs]; exact Nat.le_refl _)]
  simp

/-- All but the memory is the same. -/
def SameShape (a b : Ds) : Prop := ∃ m, b = { a with mem := m }

theorem SameShape.refl (a : Ds) : SameShape a a := ⟨a.mem, rfl⟩
theorem SameShape.trans {a b c : Ds} : SameShape a b → SameShape b c → SameShape a c
  | ⟨m, h1⟩, ⟨m', h2⟩ => ⟨m', by rw [h2, h1]⟩

/-- The signal is to be set. -/
def Unused (current : Nat) (ds : Ds) (k : Nat) : Prop := ∃ s, ds.sigs[k]? = some s ∧ s.producers current = 0

theorem prepareSignal_spec (current : Nat) (ds : Ds) (k : Nat) (hl : Laid ds) (hd : DefaultsFit ds.sigs) :
    ∃ ok ds', prepareSignal current ds k = some (ok, ds') ∧ SameShape ds ds' ∧ Laid ds' ∧
      (ok = true ↔ k < ds.sigs.length ∧ ∀ s, ds.sigs[k]? = some s → s.producers current = 0 → s.default ≠ some none) ∧
      (ok = true → ∀ j s, ds.sigs[j]? = some s →
        content ds.multiple ds.sigs ds'.mem j =
          if j = k ∧ s.producers current = 0 then after s (content ds.multiple ds.sigs ds.mem j) else content ds.multiple ds.sigs ds.mem j) := by
  unfold prepareSignal
  cases hk : ds.sigs[k]? with
  | none =>
    refine ⟨false, ds, rfl, .refl _, hl, ?_, by simp⟩
    rw [List.getElem?_eq_none_iff] at hk
    simp only [Bool.false_eq_true, false_iff, not_and]
    omega
  | some s =>
    have hlt : k < ds.sigs.length := by
      rcases Nat.lt_or_ge k ds.sigs.length with h | h
      · exact h
      · rw [List.getElem?_eq_none h] at hk; exact absurd hk (by simp)
    have hmem : s ∈ ds.sigs := List.mem_of_getElem? hk
    by_cases hp : s.producers current = 0
    · have hb : buffer ds k 0 = some (start ds.multiple ds.sigs k) := by
        simp [buffer, hlt, List.getD, hl.off k hlt]
      have hwrite : (s.default ≠ some none) → ∃ ds', ((write ds.mem (start ds.multiple ds.sigs k) (initial s)).map fun m => (true, { ds with mem := m })) = some (true, ds') ∧
          SameShape ds ds' ∧ Laid ds' ∧ ∀ j x, ds.sigs[j]? = some x →
            content ds.multiple ds.sigs ds'.mem j =
              if j = k ∧ x.producers current = 0 then after x (content ds.multiple ds.sigs ds.mem j) else content ds.multiple ds.sigs ds.mem j := by
        intro _
        have hrl := room_le (m := ds.multiple) (s := s) fun h => hl.samples h s hmem
        have hse := start_succ ds.multiple ds.sigs k s hk
        have hend := start_all ds.multiple ds.sigs (show k + 1 ≤ ds.sigs.length from hlt)
        have hil := initial_length hd hmem
        obtain ⟨m, h1, h2, h3, h4⟩ := write_spec (mem := ds.mem) (off := start ds.multiple ds.sigs k) (b := initial s)
          (by rw [hil, hl.len]; omega)
        refine ⟨{ ds with mem := m }, by rw [h1]; rfl, ⟨m, rfl⟩, ⟨hl.off, by rw [← hl.len]; exact h2, hl.samples⟩, ?_⟩
        intro j x hx
        by_cases hjk : j = k
        · subst hjk
          rw [hk] at hx; cases hx
          rw [if_pos ⟨rfl, hp⟩]
          unfold content after
          rw [hk]
          show (m.drop _).take (room ds.multiple s) = _
          rw [h4 _ (by rw [hil]; exact hrl), hil]
          rfl
        · rw [if_neg (fun h => hjk h.1)]
          unfold content
          rw [hx]
          show (m.drop _).take (room ds.multiple x) = (ds.mem.drop _).take (room ds.multiple x)
          apply h3
          rw [hil]
          rcases Nat.lt_or_gt_of_ne hjk with h | h
          · left
            rw [← start_succ ds.multiple ds.sigs j x hx]
            exact start_mono _ _ h
          · right
            have := start_mono ds.multiple ds.sigs (show k + 1 ≤ j from h)
            omega
      simp only [if_pos hp, hb]
      rcases hdef : s.default with _ | _ | b
      · obtain ⟨ds', a1, a2, a3, a4⟩ := hwrite (by rw [hdef]; simp)
        have hi : initial s = List.replicate s.bytes 0 := by simp [initial, hdef]
        rw [hi] at a1
        exact ⟨true, ds', a1, a2, a3, by simp [hlt, hdef], fun _ => a4⟩
      · refine ⟨false, ds, rfl, .refl _, hl, ?_, by simp⟩
        simp [hp, hdef]
      · obtain ⟨ds', a1, a2, a3, a4⟩ := hwrite (by rw [hdef]; simp)
        have hi : initial s = b := by simp [initial, hdef]
        rw [hi] at a1
        exact ⟨true, ds', a1, a2, a3, by simp [hlt, hdef], fun _ => a4⟩
    · simp only [if_neg hp]
      refine ⟨true, ds, rfl, .refl _, hl, by simp [hlt, hp], ?_⟩
      intro _ j x hx
      by_cases hjk : j = k
      · subst hjk
        rw [hk] at hx; cases hx
        rw [if_neg (fun h => hp h.2)]
      · rw [if_neg (fun h => hjk h.1)]

/-- What the loops do, for the signals `ks`. -/
def Done (current : Nat) (ks : List Nat) (ds ds' : Ds) : Prop :=
  ∀ j s, ds.sigs[j]? = some s → content ds.multiple ds.sigs ds'.mem j =
    if j ∈ ks ∧ s.producers current = 0 then after s (content ds.multiple ds.sigs ds.mem j) else content ds.multiple ds.sigs ds.mem j

/-- When they succeed. -/
def Able (current : Nat) (ks : List Nat) (ds : Ds) : Prop :=
  ∀ k, k ∈ ks → k < ds.sigs.length ∧ ∀ s, ds.sigs[k]? = some s → s.producers current = 0 → s.default ≠ some none

theorem Done.trans {current : Nat} {a b : List Nat} {x y z : Ds} (hd : DefaultsFit x.sigs) (hs : SameShape x y) (h1 : Done current a x y) (h2 : Done current b y z) :
    Done current (a ++ b) x z := by
  obtain ⟨m, rfl⟩ := hs
  intro j s hj
  have e2 := h2 j s hj
  simp only at e2
  rw [e2]
  have e1 := h1 j s hj
  simp only at e1
  rw [e1]
  have hmem := List.mem_of_getElem? hj
  by_cases hp : s.producers current = 0 <;> by_cases ha : j ∈ a <;> by_cases hb : j ∈ b <;> simp [hp, ha, hb, after_after hd hmem]

theorem prepareFunction_spec (current : Nat) : ∀ (ks : List Nat) (ds : Ds), Laid ds → DefaultsFit ds.sigs →
    ∃ ok ds', prepareFunction current ds ks = some (ok, ds') ∧ SameShape ds ds' ∧ Laid ds' ∧ (ok = true ↔ Able current ks ds) ∧
      (ok = true → Done current ks ds ds')
  | [], ds, hl, _ => ⟨true, ds, rfl, .refl _, hl, by simp [Able], fun _ j s _ => by simp⟩
  | k :: ks, ds, hl, hd => by
    obtain ⟨ok, d1, h1, h2, h3, h4, h5⟩ := prepareSignal_spec current ds k hl hd
    cases ok with
    | false =>
      refine ⟨false, d1, by simp [prepareFunction, h1], h2, h3, ?_, by simp⟩
      refine ⟨by simp, fun h => ?_⟩
      exact h4.mpr (h k (by simp))
    | true =>
      have hsig : d1.sigs = ds.sigs := by obtain ⟨m, rfl⟩ := h2; rfl
      obtain ⟨ok2, d2, g1, g2, g3, g4, g5⟩ := prepareFunction_spec current ks d1 h3 (by rw [hsig]; exact hd)
      refine ⟨ok2, d2, by simp [prepareFunction, h1, g1], h2.trans g2, g3, ?_, fun h => ?_⟩
      · rw [g4]
        unfold Able
        rw [hsig]
        constructor
        · intro h x hx
          rcases List.mem_cons.mp hx with e | e
          · rw [e]; exact h4.mp rfl
          · exact h x e
        · intro h x hx
          exact h x (List.mem_cons_of_mem _ hx)
      · have d := Done.trans (a := [k]) hd h2 (fun j s hj => by simpa using h5 rfl j s hj) (g5 h)
        simpa using d

theorem prepareFunctions_spec (current : Nat) : ∀ (fs : List (List Nat)) (ds : Ds), Laid ds → DefaultsFit ds.sigs →
    ∃ ok ds', prepareFunctions current ds fs = some (ok, ds') ∧ SameShape ds ds' ∧ Laid ds' ∧ (ok = true ↔ Able current fs.flatten ds) ∧
      (ok = true → Done current fs.flatten ds ds')
  | [], ds, hl, _ => ⟨true, ds, rfl, .refl _, hl, by simp [Able], fun _ j s _ => by simp⟩
  | f :: fs, ds, hl, hd => by
    obtain ⟨ok, d1, h1, h2, h3, h4, h5⟩ := prepareFunction_spec current f ds hl hd
    cases ok with
    | false =>
      refine ⟨false, d1, by simp [prepareFunctions, h1], h2, h3, ?_, by simp⟩
      refine ⟨by simp, fun h => ?_⟩
      exact h4.mpr fun k hk => h k (by simp [hk])
    | true =>
      have hsig : d1.sigs = ds.sigs := by obtain ⟨m, rfl⟩ := h2; rfl
      obtain ⟨ok2, d2, g1, g2, g3, g4, g5⟩ := prepareFunctions_spec current fs d1 h3 (by rw [hsig]; exact hd)
      refine ⟨ok2, d2, by simp [prepareFunctions, h1, g1], h2.trans g2, g3, ?_, fun h => ?_⟩
      · rw [g4]
        unfold Able
        rw [hsig, List.flatten_cons]
        constructor
        · intro h x hx
          rcases List.mem_append.mp hx with e | e
          · exact h4.mp rfl x e
          · exact h x e
        · intro h x hx
          exact h x (List.mem_append.mpr (Or.inr hx))
      · rw [List.flatten_cons]
        exact Done.trans hd h2 (h5 rfl) (g5 h)

end Verif.GamData
