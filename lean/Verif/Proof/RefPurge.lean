import Verif.Model.RefPurge
import Verif.Spec.RefPurge
set_option maxRecDepth 8000
set_option linter.unusedSimpArgs false
set_option linter.unusedVariables false
namespace Verif.RefPurge
open Verif.Spec.RefPurge

theorem kids_set (s : S) (x y : Nat) (l : List Nat) (l' : List Nat) (hx : x < s.heap.length) :
    kids ⟨s.heap.set x l, l'⟩ y = if x = y then l else kids s y := by
  unfold kids
  simp only [List.getElem?_set]
  by_cases h : x = y
  · subst h; simp [hx]
  · simp [h]

theorem kids_lt (s : S) (x : Nat) (h : kids s x ≠ []) : x < s.heap.length := by
  apply Nat.lt_of_not_le
  intro hle
  exact h (by simp [kids, List.getElem?_eq_none hle])

theorem count_set (o : Nat) (heap : List (List Nat)) : ∀ (x : Nat) (l : List Nat), x < heap.length →
    (heap.set x l).flatten.count o + ((heap[x]?).getD []).count o = heap.flatten.count o + l.count o := by
  induction heap with
  | nil => intro x l h; simp at h
  | cons a heap ih =>
    intro x l h
    cases x with
    | zero => simp only [List.set_cons_zero, List.flatten_cons, List.count_append, List.getElem?_cons_zero, Option.getD_some]; omega
    | succ x =>
      have := ih x l (by simpa using h)
      simp only [List.set_cons_succ, List.flatten_cons, List.count_append, List.getElem?_cons_succ]; omega

theorem length_set (heap : List (List Nat)) : ∀ (x : Nat) (l : List Nat), x < heap.length →
    (heap.set x l).flatten.length + ((heap[x]?).getD []).length = heap.flatten.length + l.length := by
  induction heap with
  | nil => intro x l h; simp at h
  | cons a heap ih =>
    intro x l h
    cases x with
    | zero => simp only [List.set_cons_zero, List.flatten_cons, List.length_append, List.getElem?_cons_zero, Option.getD_some]; omega
    | succ x =>
      have := ih x l (by simpa using h)
      simp only [List.set_cons_succ, List.flatten_cons, List.length_append, List.getElem?_cons_succ]; omega

theorem drain_eq (n : Nat) : ∀ (x : Nat) (s : S), (kids s x).length = n →
    (drain n x s).list = s.list ++ kids s x ∧
    (∀ y, kids (drain n x s) y = if x = y then [] else kids s y) ∧
    (∀ o, (drain n x s).heap.flatten.count o + (kids s x).count o = s.heap.flatten.count o) ∧
    (drain n x s).heap.flatten.length + n = s.heap.flatten.length := by
  induction n with
  | zero =>
    intro x s h
    have h0 : kids s x = [] := List.length_eq_zero_iff.1 h
    refine ⟨by simp [drain, h0], ?_, by simp [drain, h0], by simp [drain]⟩
    intro y
    by_cases hxy : x = y
    · subst hxy; simp [drain, h0]
    · simp [drain, hxy]
  | succ n ih =>
    intro x s h
    cases hk : kids s x with
    | nil => rw [hk] at h; simp at h
    | cons o ks =>
      have hx : x < s.heap.length := kids_lt s x (by rw [hk]; simp)
      rw [drain]
      simp only [hk, List.erase_cons_head]
      have hk' : kids ⟨s.heap.set x ks, s.list ++ [o]⟩ x = ks := by rw [kids_set s x x ks _ hx]; simp
      obtain ⟨h1, h2, h3, h4⟩ := ih x ⟨s.heap.set x ks, s.list ++ [o]⟩ (by rw [hk']; rw [hk] at h; simpa using h)
      refine ⟨by rw [h1, hk']; simp, ?_, ?_, ?_⟩
      · intro y
        rw [h2 y, kids_set s x y ks _ hx]
        by_cases hxy : x = y <;> simp [hxy]
      · intro p
        have h5 := h3 p
        rw [hk'] at h5
        have h6 := count_set p s.heap x ks hx
        have h7 : ((s.heap[x]?).getD []) = o :: ks := hk
        rw [h7] at h6
        simp only at h5
        omega
      · have h6 := length_set s.heap x ks hx
        have h7 : ((s.heap[x]?).getD []) = o :: ks := hk
        rw [h7] at h6
        simp only [List.length_cons] at h4 h6
        omega

/-- What a purge, or part of one, may do. -/
structure Step (s t : S) : Prop where
  keep : ∀ y, kids t y = [] ∨ kids t y = kids s y
  closed : ∀ y z, kids s y ≠ [] → kids t y = [] → z ∈ kids s y → kids t z = []
  list : ∃ l, t.list = s.list ++ l
  count : ∀ o, t.list.count o + t.heap.flatten.count o = s.list.count o + s.heap.flatten.count o
  le : t.heap.flatten.length ≤ s.heap.flatten.length

theorem Step.refl (s : S) : Step s s :=
  ⟨fun _ => Or.inr rfl, fun y z h1 h2 => absurd h2 h1, ⟨[], by simp⟩, fun _ => rfl, Nat.le_refl _⟩

theorem Step.stay {s t : S} (h : Step s t) {y : Nat} (h0 : kids s y = []) : kids t y = [] := by
  rcases h.keep y with h1 | h1
  · exact h1
  · rw [h1, h0]

theorem Step.trans {s t u : S} (h1 : Step s t) (h2 : Step t u) : Step s u where
  keep y := by
    rcases h2.keep y with a | a
    · exact Or.inl a
    · rcases h1.keep y with b | b
      · exact Or.inl (by rw [a, b])
      · exact Or.inr (by rw [a, b])
  closed y z ha hb hz := by
    by_cases hc : kids t y = []
    · exact h2.stay (h1.closed y z ha hc hz)
    · have hk : kids t y = kids s y := by
        rcases h1.keep y with b | b
        · exact absurd b hc
        · exact b
      exact h2.closed y z hc hb (by rw [hk]; exact hz)
  list := by
    obtain ⟨l1, e1⟩ := h1.list
    obtain ⟨l2, e2⟩ := h2.list
    exact ⟨l1 ++ l2, by rw [e2, e1, List.append_assoc]⟩
  count o := by have a := h1.count o; have b := h2.count o; omega
  le := Nat.le_trans h2.le h1.le

/-- What is emptied was reached. -/
def Only (s t : S) (x : Nat) : Prop := ∀ y, kids t y ≠ kids s y → Reach s.heap x y

theorem reach_mono {s t : S} (h : Step s t) {x y : Nat} (hr : Reach t.heap x y) : Reach s.heap x y := by
  induction hr with
  | self => exact .self
  | @step y z _ hz ih =>
    have hz' : z ∈ kids t y := hz
    rcases h.keep y with a | a
    · rw [a] at hz'; simp at hz'
    · rw [a] at hz'; exact .step ih hz'

theorem reach_trans {heap : List (List Nat)} {x y z : Nat} (h1 : Reach heap x y) (h2 : Reach heap y z) : Reach heap x z := by
  induction h2 with
  | self => exact h1
  | step _ hz ih => exact .step ih hz

/-- The second loop. -/
theorem each_spec (fuel : Nat)
    (ih : ∀ x s, s.heap.flatten.length < fuel → ∃ t, purge fuel x s = some t ∧ Step s t ∧ kids t x = [] ∧ Only s t x)
    (ks : List Nat) : ∀ (pre : List Nat) (s : S) (post : List Nat), s.list = pre ++ ks ++ post →
    s.heap.flatten.length < fuel →
    ∃ t, each (purge fuel) pre.length ks.length s = some t ∧ Step s t ∧ (∀ k ∈ ks, kids t k = []) ∧
      (∀ y, kids t y ≠ kids s y → ∃ k ∈ ks, Reach s.heap k y) := by
  induction ks with
  | nil =>
    intro pre s post _ _
    exact ⟨s, rfl, .refl s, by simp, fun y h => absurd rfl h⟩
  | cons k ks ihk =>
    intro pre s post hl hf
    obtain ⟨t, h1, h2, h3, h4⟩ := ih k s hf
    obtain ⟨l, hl2⟩ := h2.list
    obtain ⟨u, g1, g2, g3, g4⟩ := ihk (pre ++ [k]) t (post ++ l) (by rw [hl2, hl]; simp) (Nat.lt_of_le_of_lt h2.le hf)
    refine ⟨u, ?_, h2.trans g2, ?_, ?_⟩
    · rw [List.length_cons, each]
      have hg : s.list[pre.length]? = some k := by rw [hl]; simp
      simp only [hg, h1, Option.bind_some]
      simpa using g1
    · intro k' hk'
      rcases List.mem_cons.1 hk' with rfl | hk'
      · exact g2.stay h3
      · exact g3 k' hk'
    · intro y hy
      by_cases ha : kids t y = kids s y
      · obtain ⟨k', hk', hr⟩ := g4 y (by rw [ha]; exact hy)
        exact ⟨k', List.mem_cons_of_mem _ hk', reach_mono h2 hr⟩
      · exact ⟨k, List.mem_cons_self, h4 y ha⟩

theorem purge_spec (fuel : Nat) : ∀ (x : Nat) (s : S), s.heap.flatten.length < fuel →
    ∃ t, purge fuel x s = some t ∧ Step s t ∧ kids t x = [] ∧ Only s t x := by
  induction fuel with
  | zero => intro _ _ h; omega
  | succ fuel ih =>
    intro x s hf
    obtain ⟨d1, d2, d3, d4⟩ := drain_eq (kids s x).length x s rfl
    rw [purge]
    by_cases hk : kids s x = []
    · rw [hk]
      exact ⟨s, rfl, .refl s, hk, fun y h => absurd rfl h⟩
    · have hpos : 0 < (kids s x).length := List.length_pos_iff.2 hk
      generalize hd : drain (kids s x).length x s = d at *
      obtain ⟨t, h1, h2, h3, h4⟩ := each_spec fuel ih (kids s x) s.list d [] (by rw [d1]; simp) (by omega)
      have hx0 : kids d x = [] := by rw [d2]; simp
      refine ⟨t, h1, ⟨?_, ?_, ?_, ?_, ?_⟩, h2.stay hx0, ?_⟩
      · intro y
        rcases h2.keep y with a | a
        · exact Or.inl a
        · rw [a, d2]
          by_cases hxy : x = y <;> simp [hxy]
      · intro y z ha hb hz
        by_cases hxy : x = y
        · subst hxy; exact h3 z hz
        · have hdy : kids d y = kids s y := by rw [d2]; simp [hxy]
          exact h2.closed y z (by rw [hdy]; exact ha) hb (by rw [hdy]; exact hz)
      · obtain ⟨l, e⟩ := h2.list
        exact ⟨kids s x ++ l, by rw [e, d1, List.append_assoc]⟩
      · intro o
        have a := h2.count o
        have b := d3 o
        rw [d1, List.count_append] at a
        omega
      · have := h2.le; omega
      · intro y hy
        by_cases hxy : x = y
        · subst hxy; exact .self
        · have hdy : kids d y = kids s y := by rw [d2]; simp [hxy]
          obtain ⟨k, hks, hr⟩ := h4 y (by rw [hdy]; exact hy)
          have hdr : Reach s.heap k y := by
            clear h4 hy hdy hxy h3 h2 h1
            induction hr with
            | self => exact .self
            | @step y z _ hz ih =>
              have hz' : z ∈ kids d y := hz
              rw [d2] at hz'
              by_cases hxy : x = y
              · simp [hxy] at hz'
              · simp only [hxy, if_false] at hz'
                exact .step ih hz'
          exact reach_trans (.step .self hks) hdr

end Verif.RefPurge
