import Verif.Proof.LinkedList
namespace Verif.LinkedList
open Verif.Spec.LinkedList

theorem free_eq {h : Heap} {p : Addr} {n : Option Addr} (hp : h p = some n) :
    free h p = some (fun a => if a = p then none else h a) := by simp only [free, hp]

theorem deleteAll_spec {t : Addr → Bool} {s : Option Addr} {l1 l2 : List Addr} {q : Addr} {h : Heap}
    (hm : Seg h s (l1 ++ [q] ++ l2) none) (hnd : (l1 ++ [q] ++ l2).Nodup) (f : Nat) (hf : l2.length < f) :
    ∃ h', deleteAll t f h q = some (l2.countP t, h') ∧ Seg h' s (l1 ++ [q] ++ l2.filter (fun a => !t a)) none ∧
      ∀ a, a ∉ q :: l2 → h' a = h a := by
  induction l2 generalizing l1 q h f with
  | nil =>
    cases f with
    | zero => simp at hf
    | succ f =>
      have hq : h q = some none := by
        rw [List.append_nil, seg_append] at hm; obtain ⟨m, _, _, n', hn', h4⟩ := hm; rw [hn', h4]
      exact ⟨h, by simp [deleteAll, hq], by simpa using hm, fun _ _ => rfl⟩
  | cons p l2 ih =>
    cases f with
    | zero => simp at hf
    | succ f =>
      obtain ⟨n, h1, hq, hp, hs1, hs2, hsg, hp1, hfr, hsg', hp'⟩ := unlink_spec hm hnd
      cases ht : t p with
      | true =>
        have hfree := free_eq hp'
        generalize hg : (fun a => if a = p then none else upd h q n a) = h2 at hfree
        have hsg2 : Seg h2 s (l1 ++ [q] ++ l2) none := by
          refine seg_frame hsg' (fun a ha => ?_)
          rw [← hg]; simp only; rw [if_neg]; rintro rfl; grind
        obtain ⟨h3, e, hs3, hf3⟩ := ih hsg2 (by grind) f (by simpa using hf)
        refine ⟨h3, by simp [deleteAll, hq, hp, ht, hs1, hfree, e], by simpa [ht] using hs3, ?_⟩
        intro a ha
        rw [hf3 a (by grind), ← hg]
        simp only [List.mem_cons, not_or] at ha
        simp [ha.2.1, upd_other _ _ ha.1]
      | false =>
        have hm2 : Seg h s ((l1 ++ [q]) ++ [p] ++ l2) none := by simpa using hm
        obtain ⟨h3, e, hs3, hf3⟩ := ih hm2 (by simpa using hnd) f (by simpa using hf)
        refine ⟨h3, by simp [deleteAll, hq, ht, e], by simpa [ht] using hs3, ?_⟩
        intro a ha; exact hf3 a (by grind)

/-- One bubble pass of `k` comparisons, on lists. -/
def bub (cmp : Addr → Addr → Int) : Nat → List Addr → List Addr
  | k + 1, a1 :: a2 :: r => if cmp a1 a2 > 0 then a2 :: bub cmp k (a1 :: r) else a1 :: bub cmp k (a2 :: r)
  | _, l => l

/-- Passes of `k`, `k-1`, ..., 1 comparisons. -/
def bubs (cmp : Addr → Addr → Int) : Nat → List Addr → List Addr
  | 0, l => l
  | k + 1, l => bubs cmp k (bub cmp (k + 1) l)

theorem bub_perm (cmp) (k : Nat) (l : List Addr) : (bub cmp k l).Perm l := by
  induction k generalizing l with
  | zero => cases l <;> simp [bub]
  | succ k ih =>
    match l with
    | [] => simp [bub]
    | [a] => simp [bub]
    | a1 :: a2 :: r =>
      simp only [bub]; split
      · exact ((ih (a1 :: r)).cons a2).trans (List.Perm.swap ..)
      · exact (ih (a2 :: r)).cons a1

theorem bubs_perm (cmp) (k : Nat) (l : List Addr) : (bubs cmp k l).Perm l := by
  induction k generalizing l with
  | zero => simp [bubs]
  | succ k ih => exact (ih _).trans (bub_perm cmp _ _)

theorem bub_max {cmp} (hc : TotalPreorder cmp) (k : Nat) (A B : List Addr) (hA : A.length = k + 1) :
    ∃ A' m, bub cmp k (A ++ B) = A' ++ m :: B ∧ A.Perm (A' ++ [m]) ∧ A'.length = k ∧ ∀ x ∈ A', cmp x m ≤ 0 := by
  induction k generalizing A with
  | zero =>
    match A, hA with
    | [a], _ => exact ⟨[], a, by simp [bub], by simp, rfl, by simp⟩
  | succ k ih =>
    match A, hA with
    | a1 :: a2 :: r, hA =>
      simp only [List.cons_append, bub]
      split
      · rename_i hgt
        obtain ⟨A', m, e, hp, hl, hm⟩ := ih (a1 :: r) (by simpa using hA)
        refine ⟨a2 :: A', m, by simpa using e, ?_, by simp [hl], ?_⟩
        · exact (List.Perm.swap ..).trans (hp.cons a2)
        · intro x hx
          rcases List.mem_cons.mp hx with rfl | hx
          · have h1 : cmp x a1 ≤ 0 := by rcases hc.total x a1 with h | h <;> omega
            have h2 : a1 ∈ A' ++ [m] := hp.subset (by simp)
            rcases List.mem_append.mp h2 with h2 | h2
            · exact hc.trans _ _ _ h1 (hm _ h2)
            · simp at h2; rw [← h2]; exact h1
          · exact hm x hx
      · rename_i hgt
        obtain ⟨A', m, e, hp, hl, hm⟩ := ih (a2 :: r) (by simpa using hA)
        refine ⟨a1 :: A', m, by simpa using e, hp.cons a1, by simp [hl], ?_⟩
        intro x hx
        rcases List.mem_cons.mp hx with rfl | hx
        · have h1 : cmp x a2 ≤ 0 := by omega
          have h2 : a2 ∈ A' ++ [m] := hp.subset (by simp)
          rcases List.mem_append.mp h2 with h2 | h2
          · exact hc.trans _ _ _ h1 (hm _ h2)
          · simp at h2; rw [← h2]; exact h1
        · exact hm x hx

theorem bubs_sorted {cmp} (hc : TotalPreorder cmp) (k : Nat) (A B : List Addr) (hA : A.length = k + 1)
    (hB : Sorted cmp B) (hAB : ∀ a ∈ A, ∀ b ∈ B, cmp a b ≤ 0) : Sorted cmp (bubs cmp k (A ++ B)) := by
  induction k generalizing A B with
  | zero =>
    match A, hA with
    | [a], _ => exact List.pairwise_cons.mpr ⟨fun b hb => hAB a (by simp) b hb, hB⟩
  | succ k ih =>
    obtain ⟨A', m, e, hp, hl, hm⟩ := bub_max hc (k + 1) A B hA
    simp only [bubs, e]
    refine ih A' (m :: B) hl (List.pairwise_cons.mpr ⟨fun b hb => hAB m (hp.mem_iff.mpr (by simp)) b hb, hB⟩) ?_
    intro a ha b hb
    rcases List.mem_cons.mp hb with rfl | hb
    · exact hm a ha
    · exact hAB a (hp.mem_iff.mpr (by simp [ha])) b hb

/-- The exchange of two adjacent elements. -/
theorem swap_spec {cmp} {s : Option Addr} {l1 r : List Addr} {p a1 a2 : Addr} {h : Heap}
    (hm : Seg h s (l1 ++ [p] ++ a1 :: a2 :: r) none) (hnd : (l1 ++ [p] ++ a1 :: a2 :: r).Nodup) :
    h p = some (some a1) ∧ h a1 = some (some a2) ∧ ∃ h' p', swapStep cmp h p a1 a2 = some (h', p') ∧
      (∀ a, a ∉ [p, a1, a2] → h' a = h a) ∧
      (if cmp a1 a2 > 0 then p' = a2 ∧ Seg h' s (l1 ++ [p] ++ a2 :: a1 :: r) none
       else p' = a1 ∧ h' = h) := by
  rw [seg_append] at hm
  obtain ⟨m, h1, h2, n1, hn1, h3, n2, hn2, h4⟩ := hm
  subst h2 h3
  have hp : h p = some (some a1) := by
    rw [seg_append] at h1; obtain ⟨m, _, _, n', hn', h4⟩ := h1; rw [hn', h4]
  refine ⟨hp, hn1, ?_⟩
  by_cases hgt : cmp a1 a2 > 0
  · have d1 : a2 ≠ a1 := by grind
    have d2 : p ≠ a1 := by grind
    have d3 : p ≠ a2 := by grind
    have e1 := setNext_eq hn1 n2
    have e2 := setNext_eq ((upd_other h n2 d1).trans hn2) (some a1)
    have e3 := setNext_eq ((upd_other (upd h a1 n2) (some a1) d3).trans ((upd_other h n2 d2).trans hp)) (some a2)
    refine ⟨_, a2, by simp only [swapStep, if_pos hgt, hn2, Option.bind_some, e1, e2, e3]; rfl, ?_, ?_⟩
    · intro a ha; simp only [List.mem_cons, not_or] at ha
      rw [upd_other _ _ ha.1, upd_other _ _ ha.2.2.1, upd_other _ _ ha.2.1]
    · rw [if_pos hgt]
      refine ⟨rfl, ?_⟩
      rw [seg_append]
      refine ⟨some a2, ?_, rfl, some a1, ?_, rfl, n2, ?_, ?_⟩
      · exact seg_relink (seg_upd (seg_upd h1 (by grind)) (by grind)) (by grind)
      · rw [upd_other _ _ (Ne.symm d3), upd_self]
      · rw [upd_other _ _ (Ne.symm d2), upd_other _ _ (Ne.symm d1), upd_self]
      · exact seg_upd (seg_upd (seg_upd h4 (by grind)) (by grind)) (by grind)
  · exact ⟨h, a1, by simp [swapStep, hgt], fun _ _ => rfl, by simp [hgt]⟩

theorem firstPass_spec {cmp} {s : Option Addr} {l1 l : List Addr} {p : Addr} {h : Heap}
    (hl : l ≠ []) (hm : Seg h s (l1 ++ [p] ++ l) none) (hnd : (l1 ++ [p] ++ l).Nodup) (f : Nat) (hf : l.length ≤ f)
    (count : Nat) :
    ∃ h', firstPass cmp f h p count = some (h', count + (l.length - 1)) ∧
      Seg h' s (l1 ++ [p] ++ bub cmp (l.length - 1) l) none ∧ ∀ a, a ∉ p :: l → h' a = h a := by
  induction f generalizing l1 l p h count with
  | zero => cases l <;> simp_all
  | succ f ih =>
    match l, hl with
    | [a], _ =>
      rw [seg_append] at hm
      obtain ⟨m, h1, h2, n, hn, h3⟩ := hm
      subst h2; cases h3
      have hp : h p = some (some a) := by
        rw [seg_append] at h1; obtain ⟨m, _, _, n', hn', h4⟩ := h1; rw [hn', h4]
      refine ⟨h, by simp [firstPass, hp, hn], ?_, fun _ _ => rfl⟩
      simp only [List.length_singleton, Nat.sub_self, bub]
      rw [seg_append]; exact ⟨_, h1, rfl, none, hn, rfl⟩
    | a1 :: a2 :: r, _ =>
      obtain ⟨hp, ha1, h', p', e, hfr, hsw⟩ := swap_spec (cmp := cmp) hm hnd
      by_cases hgt : cmp a1 a2 > 0
      · rw [if_pos hgt] at hsw
        obtain ⟨rfl, hs'⟩ := hsw
        have hs2 : Seg h' s ((l1 ++ [p]) ++ [p'] ++ a1 :: r) none := by simpa using hs'
        obtain ⟨h2, e2, hs3, hf3⟩ := ih (by simp) hs2 (by grind) (by simpa using hf) (count + 1)
        refine ⟨h2, ?_, ?_, ?_⟩
        · simp only [firstPass, hp, Option.bind_some, ha1, e, e2]; simp; omega
        · simpa [bub, hgt] using hs3
        · intro a ha; rw [hf3 a (by grind), hfr a (by grind)]
      · rw [if_neg hgt] at hsw
        obtain ⟨rfl, rfl⟩ := hsw
        have hs2 : Seg h' s ((l1 ++ [p]) ++ [p'] ++ a2 :: r) none := by simpa using hm
        obtain ⟨h2, e2, hs3, hf3⟩ := ih (by simp) hs2 (by grind) (by simpa using hf) (count + 1)
        refine ⟨h2, ?_, ?_, ?_⟩
        · simp only [firstPass, hp, Option.bind_some, ha1, e, e2]; simp; omega
        · simpa [bub, hgt] using hs3
        · intro a ha; rw [hf3 a (by grind)]

theorem innerPass_spec {cmp} (k : Nat) {s : Option Addr} {l1 l : List Addr} {p : Addr} {h : Heap}
    (hl : k < l.length) (hm : Seg h s (l1 ++ [p] ++ l) none) (hnd : (l1 ++ [p] ++ l).Nodup) :
    ∃ h', innerPass cmp k h p = some h' ∧ Seg h' s (l1 ++ [p] ++ bub cmp k l) none ∧ ∀ a, a ∉ p :: l → h' a = h a := by
  induction k generalizing l1 l p h with
  | zero => exact ⟨h, rfl, by cases l <;> simpa [bub] using hm, fun _ _ => rfl⟩
  | succ k ih =>
    match l, hl with
    | a1 :: a2 :: r, hl =>
      obtain ⟨hp, ha1, h', p', e, hfr, hsw⟩ := swap_spec (cmp := cmp) hm hnd
      by_cases hgt : cmp a1 a2 > 0
      · rw [if_pos hgt] at hsw
        obtain ⟨rfl, hs'⟩ := hsw
        have hs2 : Seg h' s ((l1 ++ [p]) ++ [p'] ++ a1 :: r) none := by simpa using hs'
        obtain ⟨h2, e2, hs3, hf3⟩ := ih (by simpa using hl) hs2 (by grind)
        refine ⟨h2, ?_, ?_, ?_⟩
        · simp only [innerPass, hp, Option.bind_some, ha1, e, e2]
        · simpa [bub, hgt] using hs3
        · intro a ha; rw [hf3 a (by grind), hfr a (by grind)]
      · rw [if_neg hgt] at hsw
        obtain ⟨rfl, rfl⟩ := hsw
        have hs2 : Seg h' s ((l1 ++ [p]) ++ [p'] ++ a2 :: r) none := by simpa using hm
        obtain ⟨h2, e2, hs3, hf3⟩ := ih (by simpa using hl) hs2 (by grind)
        refine ⟨h2, ?_, ?_, ?_⟩
        · simp only [innerPass, hp, Option.bind_some, ha1, e, e2]
        · simpa [bub, hgt] using hs3
        · intro a ha; rw [hf3 a (by grind)]

theorem outerPass_spec {cmp} (k : Nat) {l : List Addr} {p : Addr} {h : Heap}
    (hl : k < l.length) (hm : Seg h (some p) (p :: l) none) (hnd : (p :: l).Nodup) :
    ∃ h', outerPass cmp p k h = some h' ∧ Seg h' (some p) (p :: bubs cmp k l) none ∧
      ∀ a, a ∉ p :: l → h' a = h a := by
  induction k generalizing l h with
  | zero => exact ⟨h, rfl, hm, fun _ _ => rfl⟩
  | succ k ih =>
    obtain ⟨h1, e1, hs1, hf1⟩ := innerPass_spec (cmp := cmp) (k + 1) (l1 := []) hl hm hnd
    have hp := bub_perm cmp (k + 1) l
    simp only [List.nil_append, List.singleton_append] at hs1
    obtain ⟨h2, e2, hs2, hf2⟩ := ih (by rw [hp.length_eq]; omega) hs1 ((hp.cons p).nodup_iff.mpr hnd)
    refine ⟨h2, by simp [outerPass, e1, e2], hs2, ?_⟩
    intro a ha
    rw [hf2 a (fun h => ha ((hp.cons p).mem_iff.mp h)), hf1 a ha]

theorem bsort_spec {cmp} {l : List Addr} {p : Addr} {h : Heap} (hm : Seg h (some p) (p :: l) none)
    (hnd : (p :: l).Nodup) (f : Nat) (hf : l.length ≤ f) :
    ∃ h' l', bsort cmp h f p = some h' ∧ Seg h' (some p) (p :: l') none ∧ l'.Perm l ∧
      (TotalPreorder cmp → Sorted cmp l') ∧ ∀ a, a ∉ p :: l → h' a = h a := by
  match l with
  | [] =>
    obtain ⟨_, n, hn, h2⟩ := hm
    cases h2
    exact ⟨h, [], by simp [bsort, hn], ⟨rfl, none, hn, rfl⟩, .nil, fun _ => .nil, fun _ _ => rfl⟩
  | b :: r =>
    have hm' := hm
    obtain ⟨_, n, hn, h2, _⟩ := hm'
    subst h2
    obtain ⟨h1, e1, hs1, hf1⟩ := firstPass_spec (cmp := cmp) (l1 := []) (l := b :: r) (by simp) hm hnd f hf 1
    have hp := bub_perm cmp r.length (b :: r)
    simp only [List.length_cons, Nat.add_sub_cancel, List.nil_append, List.singleton_append] at hs1 e1
    obtain ⟨h2, e2, hs2, hf2⟩ := outerPass_spec (cmp := cmp) (1 + r.length - 2) (by rw [hp.length_eq]; simp; omega) hs1
      ((hp.cons p).nodup_iff.mpr hnd)
    have hp2 := (bubs_perm cmp (1 + r.length - 2) _).trans hp
    refine ⟨h2, _, by simp [bsort, hn, e1, e2], hs2, hp2, fun hc => ?_, ?_⟩
    · cases r with
      | nil => simp [bubs, bub, Sorted]
      | cons c r =>
        have := bubs_sorted hc (r.length + 1) (b :: c :: r) [] (by simp) .nil (by simp)
        rw [List.append_nil] at this
        simp only [bubs] at this
        have e : 1 + (c :: r).length - 2 = r.length := by simp; omega
        rw [e]; exact this
    · intro a ha
      rw [hf2 a (fun h => ha ((hp.cons p).mem_iff.mp h)), hf1 a ha]

/-- Merge on lists. -/
def mergeL (cmp : Addr → Addr → Int) : List Addr → List Addr → List Addr
  | l, [] => l
  | [], c => c
  | x :: l, y :: c => if cmp x y > 0 then mergeL cmp (y :: x :: l) c else x :: mergeL cmp l (y :: c)
termination_by l c => (c.length, l.length)

theorem mergeL_perm (cmp) (l c : List Addr) : (mergeL cmp l c).Perm (c ++ l) := by
  fun_induction mergeL cmp l c with
  | case1 => simp
  | case2 => simp
  | case3 x l y c h ih => exact ih.trans List.perm_middle
  | case4 x l y c h ih => exact (ih.cons x).trans (List.perm_middle.symm)

theorem mergeL_sublist (cmp) (l c : List Addr) : l.Sublist (mergeL cmp l c) := by
  fun_induction mergeL cmp l c with
  | case1 => simp
  | case2 => simp
  | case3 x l y c h ih => exact (List.sublist_cons_self y _).trans ih
  | case4 x l y c h ih => exact ih.cons_cons x

theorem mergeL_sorted {cmp} (hc : TotalPreorder cmp) (l c : List Addr) (hl : Sorted cmp l) (hs : Sorted cmp c) :
    Sorted cmp (mergeL cmp l c) := by
  fun_induction mergeL cmp l c with
  | case1 => exact hl
  | case2 => exact hs
  | case3 x l y c h ih =>
    have h1 := List.pairwise_cons.mp hs
    have h2 := List.pairwise_cons.mp hl
    have hyx : cmp y x ≤ 0 := by rcases hc.total y x with h | h <;> omega
    refine ih (List.pairwise_cons.mpr ⟨fun a ha => ?_, hl⟩) h1.2
    rcases List.mem_cons.mp ha with rfl | h
    · exact hyx
    · exact hc.trans _ _ _ hyx (h2.1 a h)
  | case4 x l y c h ih =>
    have h1 := List.pairwise_cons.mp hs
    have h2 := List.pairwise_cons.mp hl
    refine List.pairwise_cons.mpr ⟨?_, ih h2.2 hs⟩
    have hxy : cmp x y ≤ 0 := by omega
    intro a ha
    have := (mergeL_perm cmp l (y :: c)).mem_iff.mp ha
    rcases List.mem_append.mp this with h | h
    · rcases List.mem_cons.mp h with rfl | h
      · exact hxy
      · exact hc.trans _ _ _ hxy (h1.1 a h)
    · exact h2.1 a h

theorem seg_last {h : Heap} {s e : Option Addr} {l : List Addr} {q : Addr} (hm : Seg h s (l ++ [q]) e) :
    h q = some e := by
  rw [seg_append] at hm; obtain ⟨m, _, _, n', hn', h4⟩ := hm; rw [hn', h4]

theorem merge_spec {cmp} (f : Nat) {s sc : Option Addr} {l1 l c : List Addr} {q : Addr} {h : Heap}
    (hm : Seg h s (l1 ++ [q] ++ l) none) (hcn : Seg h sc c none) (hnd : (l1 ++ [q] ++ l ++ c).Nodup)
    (hf : l.length + 2 * c.length < f) :
    ∃ h', merge cmp f h q sc = some h' ∧ Seg h' s (l1 ++ [q] ++ mergeL cmp l c) none ∧
      ∀ a, a ∉ q :: l ++ c → h' a = h a := by
  induction f generalizing l1 l c q h sc with
  | zero => simp at hf
  | succ f ih =>
    rw [seg_append] at hm
    obtain ⟨n, h1, h2⟩ := hm
    have hq := seg_last h1
    match c with
    | [] =>
      cases hcn
      refine ⟨h, by simp [merge, hq], ?_, fun _ _ => rfl⟩
      rw [seg_append]; exact ⟨n, h1, by simpa [mergeL] using h2⟩
    | y :: c =>
      have hcn' := hcn
      obtain ⟨rfl, ny, hny, hc2⟩ := hcn
      match l with
      | [] =>
        cases h2
        refine ⟨upd h q (some y), by simp [merge, hq, setNext_eq hq], ?_, ?_⟩
        · rw [seg_append]
          refine ⟨some y, seg_relink h1 (by grind), ?_⟩
          simp only [mergeL]; exact seg_upd hcn' (by grind)
        · intro a ha; exact upd_other _ _ (by grind)
      | x :: l =>
        have h2' := h2
        obtain ⟨rfl, nx, hnx, h3⟩ := h2
        by_cases hgt : cmp x y > 0
        · have d1 : q ≠ y := by grind
          have e1 := setNext_eq hny (some x)
          have hq1 : upd h y (some x) q = some (some x) := (upd_other h (some x) d1).trans hq
          have e2 := setNext_eq hq1 (some y)
          have hs2 : Seg (upd (upd h y (some x)) q (some y)) s (l1 ++ [q] ++ y :: x :: l) none := by
            have e : l1 ++ [q] ++ y :: x :: l = ((l1 ++ [q]) ++ [y]) ++ x :: l := by simp
            rw [e, seg_append]
            refine ⟨some x, ?_, seg_upd (seg_upd h2' (by grind)) (by grind)⟩
            rw [seg_append]
            refine ⟨some y, seg_relink (seg_upd h1 (by grind)) (by grind), rfl, some x, ?_, rfl⟩
            rw [upd_other _ _ (Ne.symm d1), upd_self]
          have hc3 : Seg (upd (upd h y (some x)) q (some y)) ny c none :=
            seg_upd (seg_upd hc2 (by grind)) (by grind)
          -- the merge goes on from `q`, whose successor is now `y`
          obtain ⟨h4, e4, hs4, hf4⟩ := ih hs2 hc3 (by grind) (by simp at hf ⊢; omega)
          refine ⟨h4, by simp [merge, hq, hgt, hny, e1, e2, e4], ?_, ?_⟩
          · simpa [mergeL, hgt] using hs4
          · intro a ha; rw [hf4 a (by grind), upd_other _ _ (by grind), upd_other _ _ (by grind)]
        · have hs2 : Seg h s ((l1 ++ [q]) ++ [x] ++ l) none := by
            simp only [List.append_assoc, List.singleton_append]
            have : Seg h s ((l1 ++ [q]) ++ x :: l) none := seg_append.mpr ⟨some x, h1, h2'⟩
            simpa using this
          obtain ⟨h4, e4, hs4, hf4⟩ := ih hs2 hcn' (by grind) (by simp at hf ⊢; omega)
          refine ⟨h4, by simp [merge, hq, hgt, e4], ?_, ?_⟩
          · simpa [mergeL, hgt] using hs4
          · intro a ha; exact hf4 a (by grind)

end Verif.LinkedList
