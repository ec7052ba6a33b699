import Verif.Spec.VectorMem
/-!
# C140: the memory of vectors
-/
set_option linter.unusedSimpArgs false
namespace Verif.VectorMem
open Spec

/-- A vector of the program is a value. -/
private def Rep (s : State) (v : Vec) : Val → Prop
  | .own l => ∃ b, v = ⟨.block b, l.length, true⟩ ∧ s.heap b = some l
  | .shows e n => v = ⟨.ext e, n, false⟩ ∧ n ≤ (s.ext e).length
  | .empty => v = Verif.VectorMem.empty

private structure R (s : State) (w : World) : Prop where
  ext : s.ext = w.ext
  rep : ∀ i, Rep s (s.vecs i) (w.vals i)
  apart : ∀ i j b, (s.vecs i).ptr = .block b → (s.vecs j).ptr = .block b → i = j
  owned : ∀ b l, s.heap b = some l → ∃ i, (s.vecs i).ptr = .block b
  fresh : ∀ b l, s.heap b = some l → b < s.next

private theorem rep_block {s : State} {v : Vec} {a : Val} {b : Nat} (h : Rep s v a) (hb : v.ptr = .block b) : ∃ l, a = .own l ∧ v = ⟨.block b, l.length, true⟩ ∧ s.heap b = some l := by
  cases a with
  | own l =>
    obtain ⟨b', rfl, h2⟩ := h
    cases hb
    exact ⟨l, rfl, rfl, h2⟩
  | shows e n => obtain ⟨rfl, _⟩ := h; cases hb
  | empty => cases h; cases hb

/-- The value of a vector whose memory is freed. -/
private def freed : Val → Val
  | .own _ => .empty
  | v => v

private theorem not_own {v : Val} (h : ∀ l, v ≠ .own l) : freed v = v := by
  cases v with
  | own l => exact absurd rfl (h l)
  | shows e n => rfl
  | empty => rfl

private theorem free_R {s : State} {w : World} (h : R s w) (i : Nat) : ∃ s', free i s = some s' ∧ R s' (w.set i (freed (w.vals i))) := by
  obtain ⟨h1, h2, h3, h4, h5⟩ := h
  have hi := h2 i
  have same : ∀ v, w.vals i = v → freed v = v → w.set i (freed (w.vals i)) = w := by
    intro v e1 e2
    have : (fun j => if j = i then v else w.vals j) = w.vals := by
      funext j
      by_cases hj : j = i
      · rw [if_pos hj, hj, e1]
      · rw [if_neg hj]
    rw [e1, e2]
    unfold World.set
    rw [this]
  cases hv : w.vals i with
  | shows e n =>
    rw [hv] at hi
    refine ⟨s, ?_, ?_⟩
    · unfold free; rw [hi.1]; rfl
    · have := same _ hv rfl
      rw [hv] at this
      rw [this]
      exact ⟨h1, h2, h3, h4, h5⟩
  | empty =>
    rw [hv] at hi
    have hi : s.vecs i = Verif.VectorMem.empty := hi
    refine ⟨s, ?_, ?_⟩
    · unfold free; rw [hi]; rfl
    · have := same _ hv rfl
      rw [hv] at this
      rw [this]
      exact ⟨h1, h2, h3, h4, h5⟩
  | own l =>
    rw [hv] at hi
    obtain ⟨b, e1, e2⟩ := hi
    refine ⟨put i Verif.VectorMem.empty { s with heap := fun x => if x = b then none else s.heap x }, ?_, ?_⟩
    · unfold free; rw [e1]; dsimp only; rw [e2]; rfl
    · have hib : (s.vecs i).ptr = .block b := by rw [e1]
      refine ⟨h1, ?_, ?_, ?_, ?_⟩
      · intro j
        by_cases hj : j = i
        · subst hj
          simp only [put, World.set, if_true, freed]
          rfl
        · simp only [put, World.set, if_neg hj]
          have hr := h2 j
          cases hw : w.vals j with
          | own l' =>
            rw [hw] at hr
            obtain ⟨b', x1, x2⟩ := hr
            refine ⟨b', x1, ?_⟩
            have : b' ≠ b := by
              rintro rfl
              exact hj (h3 j i b' (by rw [x1]) hib)
            simp [this, x2]
          | shows e n => rw [hw] at hr; exact hr
          | empty => rw [hw] at hr; exact hr
      · intro j k c hj hk
        simp only [put] at hj hk
        by_cases e3 : j = i
        · rw [if_pos e3] at hj; cases hj
        · by_cases e4 : k = i
          · rw [if_pos e4] at hk; cases hk
          · rw [if_neg e3] at hj; rw [if_neg e4] at hk
            exact h3 j k c hj hk
      · intro c l' hc
        simp only [put] at hc ⊢
        by_cases e3 : c = b
        · rw [if_pos e3] at hc; cases hc
        · rw [if_neg e3] at hc
          obtain ⟨j, hj⟩ := h4 c l' hc
          refine ⟨j, ?_⟩
          have : j ≠ i := by
            rintro rfl
            rw [hib] at hj
            cases hj
            exact e3 rfl
          rw [if_neg this]; exact hj
      · intro c l' hc
        simp only [put] at hc ⊢
        by_cases e3 : c = b
        · rw [if_pos e3] at hc; cases hc
        · rw [if_neg e3] at hc; exact h5 c l' hc

/-- A vector without memory of its own gets other members. -/
private theorem put_R {s : State} {w : World} (h : R s w) {i : Nat} (hi : ∀ l, w.vals i ≠ .own l) {v : Vec} {a : Val} (hv : Rep s v a) (hp : ∀ b, v.ptr ≠ .block b) :
    R (put i v s) (w.set i a) := by
  obtain ⟨h1, h2, h3, h4, h5⟩ := h
  refine ⟨h1, ?_, ?_, ?_, h5⟩
  · intro j
    by_cases hj : j = i
    · subst hj
      simp only [put, World.set, if_true]
      exact hv
    · simp only [put, World.set, if_neg hj]
      exact h2 j
  · intro j k c hj hk
    simp only [put] at hj hk
    by_cases e3 : j = i
    · rw [if_pos e3] at hj; exact absurd hj (hp c)
    · by_cases e4 : k = i
      · rw [if_pos e4] at hk; exact absurd hk (hp c)
      · rw [if_neg e3] at hj; rw [if_neg e4] at hk
        exact h3 j k c hj hk
  · intro c l hc
    obtain ⟨j, hj⟩ := h4 c l hc
    refine ⟨j, ?_⟩
    have : j ≠ i := by
      rintro rfl
      obtain ⟨l', e, _⟩ := rep_block (h2 j) hj
      exact hi l' e
    simp only [put, if_neg this]
    exact hj

private theorem alloc_R {s : State} {w : World} (h : R s w) {i : Nat} (hi : ∀ l, w.vals i ≠ .own l) (l : List Int) : R (alloc i l s) (w.set i (.own l)) := by
  obtain ⟨h1, h2, h3, h4, h5⟩ := h
  have old : ∀ b l', s.heap b = some l' → b ≠ s.next := fun b l' hb => by have := h5 b l' hb; omega
  refine ⟨h1, ?_, ?_, ?_, ?_⟩
  · intro j
    by_cases hj : j = i
    · subst hj
      simp only [alloc, put, World.set, if_true]
      exact ⟨s.next, rfl, by simp⟩
    · simp only [alloc, put, World.set, if_neg hj]
      have hr := h2 j
      cases hw : w.vals j with
      | own l' =>
        rw [hw] at hr
        obtain ⟨b', x1, x2⟩ := hr
        refine ⟨b', x1, ?_⟩
        simp [old b' l' x2, x2]
      | shows e n => rw [hw] at hr; exact hr
      | empty => rw [hw] at hr; exact hr
  · intro j k c hj hk
    simp only [alloc, put] at hj hk
    have no : ∀ j, (s.vecs j).ptr = .block s.next → False := by
      intro j hj
      obtain ⟨l', _, _, e⟩ := rep_block (h2 j) hj
      exact old _ _ e rfl
    by_cases e3 : j = i
    · rw [if_pos e3] at hj
      cases hj
      by_cases e4 : k = i
      · rw [e3, e4]
      · rw [if_neg e4] at hk; exact (no k hk).elim
    · rw [if_neg e3] at hj
      by_cases e4 : k = i
      · rw [if_pos e4] at hk
        cases hk
        exact (no j hj).elim
      · rw [if_neg e4] at hk
        exact h3 j k c hj hk
  · intro c l' hc
    simp only [alloc, put] at hc ⊢
    by_cases e : c = s.next
    · exact ⟨i, by rw [if_pos rfl, e]⟩
    · rw [if_neg e] at hc
      obtain ⟨j, hj⟩ := h4 c l' hc
      refine ⟨j, ?_⟩
      have : j ≠ i := by
        rintro rfl
        obtain ⟨l', e, _⟩ := rep_block (h2 j) hj
        exact hi l' e
      rw [if_neg this]; exact hj
  · intro c l' hc
    simp only [alloc, put] at hc ⊢
    by_cases e : c = s.next
    · omega
    · rw [if_neg e] at hc
      have := h5 c l' hc
      omega

private theorem set_set (w : World) (i : Nat) (a b : Val) : (w.set i a).set i b = w.set i b := by
  unfold World.set
  congr 1
  funext j
  by_cases h : j = i <;> simp [h]

private theorem freed_not (v : Val) (w : World) (i : Nat) : ∀ l, (w.set i (freed v)).vals i ≠ .own l := by
  intro l
  cases v <;> simp [World.set, freed]

private theorem destroy_R {s : State} {w : World} (h : R s w) (i : Nat) : ∃ s', destroy i s = some s' ∧ R s' (w.set i .empty) := by
  obtain ⟨s1, e, h1⟩ := free_R h i
  refine ⟨put i Verif.VectorMem.empty s1, by simp [destroy, e], ?_⟩
  have := put_R h1 (freed_not _ _ _) (v := Verif.VectorMem.empty) (a := .empty) rfl (by intro b; simp [Verif.VectorMem.empty])
  rwa [set_set] at this

private theorem step_R {s : State} {w w' : World} (h : R s w) (op : Op) (hw : Spec.step w op = some w') : ∃ s', step s op = some s' ∧ R s' w' := by
  have hempty : Rep s Verif.VectorMem.empty .empty := rfl
  cases op with
  | view i j => cases hw
  | destroy i => cases hw; exact destroy_R h i
  | make i junk =>
    cases hw
    obtain ⟨s1, e, h1⟩ := destroy_R h i
    refine ⟨alloc i junk s1, by simp [step, make, e], ?_⟩
    have := alloc_R h1 (i := i) (by simp [World.set]) junk
    rwa [set_set] at this
  | borrow i e n =>
    simp only [Spec.step] at hw
    split at hw
    · rename_i hn
      cases hw
      obtain ⟨s1, e1, h1⟩ := destroy_R h i
      refine ⟨put i ⟨.ext e, n, false⟩ s1, by simp [step, borrow, e1], ?_⟩
      have hx : s1.ext = w.ext := h1.ext
      have := put_R h1 (i := i) (by simp [World.set]) (v := ⟨.ext e, n, false⟩) (a := .shows e n) ⟨rfl, by rw [hx]; exact hn⟩ (by simp)
      rwa [set_set] at this
    · cases hw
  | setSize i junk =>
    cases hw
    obtain ⟨s1, e1, h1⟩ := free_R h i
    by_cases hj : junk = []
    · subst hj
      refine ⟨put i Verif.VectorMem.empty s1, by simp [step, setSize, e1], ?_⟩
      have := put_R h1 (freed_not _ _ _) (v := Verif.VectorMem.empty) (a := .empty) rfl (by intro b; simp [Verif.VectorMem.empty])
      rw [set_set] at this
      simpa using this
    · have : junk.length > 0 := List.length_pos_iff.2 hj
      refine ⟨alloc i junk s1, by simp [step, setSize, e1, this], ?_⟩
      have := alloc_R h1 (freed_not _ _ _) junk
      rw [set_set] at this
      simpa [hj] using this
  | assign i j =>
    cases hw
    by_cases hij : i = j
    · exact ⟨s, by simp [step, assign, hij], by simpa [hij] using h⟩
    · rw [if_neg hij]
      obtain ⟨s1, e1, h1⟩ := free_R h i
      have hji : ¬ j = i := fun e => hij e.symm
      have hj : (w.set i (freed (w.vals i))).vals j = w.vals j := by simp [World.set, hji]
      have hr := h1.rep j
      rw [hj] at hr
      have goal : ∀ s', copyInto i j s1 = some s' → R s' ((w.set i (freed (w.vals i))).set i (copied (w.vals j))) →
          ∃ s', step s (.assign i j) = some s' ∧ R s' (w.set i (copied (w.vals j))) := by
        intro s' x y
        rw [set_set] at y
        exact ⟨s', by simp [step, assign, hij, e1, x], y⟩
      cases hv : w.vals j with
      | own l =>
        rw [hv] at hr goal
        obtain ⟨b, x1, x2⟩ := hr
        by_cases hl : l = []
        · subst hl
          refine goal (put i Verif.VectorMem.empty s1) (by simp [copyInto, x1]) ?_
          simp only [copied, if_true]
          exact put_R h1 (freed_not _ _ _) rfl (by intro b; simp [Verif.VectorMem.empty])
        · have : 0 < l.length := List.length_pos_iff.2 hl
          refine goal (alloc i l s1) (by simp [copyInto, x1, this, contents, x2]) ?_
          simp only [copied, if_neg hl]
          exact alloc_R h1 (freed_not _ _ _) l
      | shows e n =>
        rw [hv] at hr goal
        obtain ⟨x1, x2⟩ := hr
        by_cases hn : n = 0
        · subst hn
          refine goal (put i Verif.VectorMem.empty s1) (by simp [copyInto, x1]) ?_
          simp only [copied, if_true]
          exact put_R h1 (freed_not _ _ _) rfl (by intro b; simp [Verif.VectorMem.empty])
        · have : 0 < n := by omega
          refine goal (put i ⟨.ext e, n, false⟩ s1) (by simp [copyInto, x1, this]) ?_
          simp only [copied, if_neg hn]
          exact put_R h1 (freed_not _ _ _) ⟨rfl, x2⟩ (by simp)
      | empty =>
        rw [hv] at hr goal
        have hr : s1.vecs j = Verif.VectorMem.empty := hr
        refine goal (put i Verif.VectorMem.empty s1) (by simp [copyInto, hr, Verif.VectorMem.empty]) ?_
        exact put_R h1 (freed_not _ _ _) rfl (by intro b; simp [Verif.VectorMem.empty])
  | write i k x =>
    obtain ⟨h1, h2, h3, h4, h5⟩ := h
    have hi := h2 i
    simp only [Spec.step] at hw
    cases hv : w.vals i with
    | empty => rw [hv] at hw; cases hw
    | own l =>
      rw [hv] at hw hi
      obtain ⟨b, x1, x2⟩ := hi
      dsimp only at hw
      split at hw
      · rename_i hk
        cases hw
        refine ⟨{ s with heap := fun y => if y = b then some (l.set k x) else s.heap y }, by simp [step, write, x1, x2, hk], h1, ?_, h3, ?_, ?_⟩
        · intro j
          by_cases hj : j = i
          · subst hj
            simp only [World.set, if_true]
            exact ⟨b, by simpa using x1, by simp⟩
          · simp only [World.set, if_neg hj]
            have hr := h2 j
            cases hw : w.vals j with
            | own l' =>
              rw [hw] at hr
              obtain ⟨b', y1, y2⟩ := hr
              refine ⟨b', y1, ?_⟩
              have : b' ≠ b := by
                rintro rfl
                exact hj (h3 j i b' (by rw [y1]) (by rw [x1]))
              simp [this, y2]
            | shows e n => rw [hw] at hr; exact hr
            | empty => rw [hw] at hr; exact hr
        · intro c l' hc
          by_cases e : c = b
          · exact ⟨i, by rw [x1, e]⟩
          · simp only [if_neg e] at hc
            exact h4 c l' hc
        · intro c l' hc
          by_cases e : c = b
          · rw [e]; exact h5 b l x2
          · simp only [if_neg e] at hc
            exact h5 c l' hc
      · cases hw
    | shows e n =>
      rw [hv] at hw hi
      obtain ⟨x1, x2⟩ := hi
      dsimp only at hw
      split at hw
      · rename_i hk
        cases hw
        have hlt : k < (s.ext e).length := by omega
        refine ⟨{ s with ext := fun y => if y = e then (s.ext e).set k x else s.ext y }, by simp [step, write, x1, hlt], by rw [h1], ?_, h3, h4, h5⟩
        intro j
        have hr := h2 j
        dsimp only
        cases hw : w.vals j with
        | own l' => rw [hw] at hr; exact hr
        | shows e' n' =>
          rw [hw] at hr
          refine ⟨hr.1, ?_⟩
          by_cases he : e' = e
          · subst he; simpa using hr.2
          · simpa [he] using hr.2
        | empty => rw [hw] at hr; exact hr
      · cases hw

private theorem run_R : ∀ (ops : List Op) {s : State} {w w' : World}, R s w → Spec.run w ops = some w' → ∃ s', run s ops = some s' ∧ R s' w'
  | [], s, w, w', h, hw => by cases hw; exact ⟨s, rfl, h⟩
  | op :: ops, s, w, w', h, hw => by
    rw [Spec.run, Option.bind_eq_some_iff] at hw
    obtain ⟨w1, e1, e2⟩ := hw
    obtain ⟨s1, f1, h1⟩ := step_R h op e1
    obtain ⟨s2, f2, h2⟩ := run_R ops h1 e2
    exact ⟨s2, by rw [run, f1]; exact f2, h2⟩

private theorem init_R (ext : Nat → List Int) : R (init ext) (start ext) :=
  ⟨rfl, fun _ => rfl, (by intro i j b h; cases h), (by intro b l h; cases h), (by intro b l h; cases h)⟩

/-- **C140.** In every history that stays within the elements and makes no vector on the memory of another one, no memory is freed twice or used after it was freed,
and the vectors and the arrays show what they do as values: a copy is independent of the original, unless both show an array of the program. -/
theorem c140_values_partial (ext : Nat → List Int) {ops : List Op} {w : World} (h : Spec.run (start ext) ops = some w) :
    ∃ s, run (init ext) ops = some s ∧ s.ext = w.ext ∧ ∀ i, contents s (s.vecs i) = some (elements w i) ∧ (s.vecs i).n = (elements w i).length := by
  obtain ⟨s, e, h1, h2, _⟩ := run_R ops (init_R ext) h
  refine ⟨s, e, h1, ?_⟩
  intro i
  have hr := h2 i
  unfold elements
  cases hv : w.vals i with
  | own l =>
    rw [hv] at hr
    obtain ⟨b, x1, x2⟩ := hr
    simp [x1, contents, x2]
  | shows e n =>
    rw [hv] at hr
    obtain ⟨x1, x2⟩ := hr
    rw [h1] at x2
    simp [x1, contents, h1, x2]
  | empty =>
    rw [hv] at hr
    have hr : s.vecs i = Verif.VectorMem.empty := hr
    simp [hr, contents, Verif.VectorMem.empty]

/-- **C140.** After such a history, each block of memory that is allocated belongs to exactly one vector, one that has elements of its own: when there is none, all
memory was freed. -/
theorem c140_freed_partial (ext : Nat → List Int) {ops : List Op} {w : World} (h : Spec.run (start ext) ops = some w) :
    ∃ s, run (init ext) ops = some s ∧ (∀ b l, s.heap b = some l → ∃ i, (s.vecs i).ptr = .block b ∧ w.vals i = .own l ∧ ∀ j, (s.vecs j).ptr = .block b → j = i) ∧
      ((∀ i l, w.vals i ≠ .own l) → ∀ b, s.heap b = none) := by
  obtain ⟨s, e, _, h2, h3, h4, _⟩ := run_R ops (init_R ext) h
  have key : ∀ b l, s.heap b = some l → ∃ i, (s.vecs i).ptr = .block b ∧ w.vals i = .own l ∧ ∀ j, (s.vecs j).ptr = .block b → j = i := by
    intro b l hb
    obtain ⟨i, hi⟩ := h4 b l hb
    obtain ⟨l', x1, _, x3⟩ := rep_block (h2 i) hi
    rw [hb] at x3
    cases x3
    exact ⟨i, hi, x1, fun j hj => h3 j i b hj hi⟩
  refine ⟨s, e, key, ?_⟩
  intro hn b
  cases hb : s.heap b with
  | none => rfl
  | some l =>
    obtain ⟨i, _, x, _⟩ := key b l hb
    exact absurd x (hn i l)

/-- **C140 fails for a vector on the memory of another one**: when it is assigned to the other one, that one frees the memory and keeps it. -/
theorem c140_view_fails (ext : Nat → List Int) (x : Int) :
    ∃ s, run (init ext) [.make 0 [x], .view 1 0, .assign 0 1] = some s ∧ contents s (s.vecs 0) = none ∧ (s.vecs 0).n = 1 := ⟨_, rfl, rfl, rfl⟩

/-- **C140 fails for a copy of a vector that shows an array of the program**: what is written to the copy is seen in the original. -/
theorem c140_copy_fails (ext : Nat → List Int) (x y : Int) (hx : ext 0 = [x]) :
    ∃ s, run (init ext) [.borrow 0 0 1, .assign 1 0, .write 1 0 y] = some s ∧ contents s (s.vecs 0) = some [y] := by
  refine ⟨_, by simp [run, step, borrow, destroy, free, init, empty, put, assign, copyInto, write, hx]; rfl, ?_⟩
  simp [contents]

/-- A vector with elements of its own is copied, the copy is changed, and both are destroyed. -/
example : ((Spec.run (start fun _ => []) [.make 0 [1, 2], .assign 1 0, .write 1 0 7]).map fun w => (elements w 0, elements w 1)) = some ([1, 2], [7, 2]) := by decide

end Verif.VectorMem
