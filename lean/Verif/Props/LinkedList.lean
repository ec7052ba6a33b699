import Verif.Proof.LinkedSort
namespace Verif.LinkedList
open Verif.Spec.LinkedList

/-- The heap holds the ideal state. -/
structure Rep (N : Nat) (tmp : Addr) (h : Heap) (w : World) : Prop where
  main : Seg h (some root) (root :: w.main) none
  ext : ∀ c ∈ w.ext, Seg h c.head? c none
  nodup : (root :: w.main ++ w.ext.flatten).Nodup
  tmp : h tmp = none
  bound : w.main.length + w.ext.flatten.length ≤ N

theorem Rep.tmp_main {N tmp h w} (r : Rep N tmp h w) : tmp ∉ root :: w.main := by
  intro hm; obtain ⟨n, hn⟩ := seg_live r.main hm; rw [r.tmp] at hn; cases hn

theorem Rep.tmp_ext {N tmp h w} (r : Rep N tmp h w) {c} (hc : c ∈ w.ext) : tmp ∉ c := by
  intro hm; obtain ⟨n, hn⟩ := seg_live (r.ext c hc) hm; rw [r.tmp] at hn; cases hn

theorem ext_frame {h h' : Heap} {ext : List (List Addr)} (he : ∀ c ∈ ext, Seg h c.head? c none)
    (hf : ∀ a ∈ ext.flatten, h' a = h a) : ∀ c ∈ ext, Seg h' c.head? c none :=
  fun c hc => seg_frame (he c hc) (fun a ha => hf a (List.mem_flatten.mpr ⟨c, hc, ha⟩))

/-- Disjointness facts for a taken chain. -/
theorem split_nodup {A C : List Addr} {e1 e2 : List (List Addr)}
    (h : (A ++ (e1 ++ C :: e2).flatten).Nodup) :
    A.Nodup ∧ C.Nodup ∧ (A ++ C).Nodup ∧ (∀ a ∈ A, a ∉ C) ∧ (∀ a ∈ (e1 ++ e2).flatten, a ∉ A ∧ a ∉ C) ∧
      (A ++ C ++ (e1 ++ e2).flatten).Nodup := by
  have hp : (A ++ (e1 ++ C :: e2).flatten).Perm (A ++ C ++ (e1 ++ e2).flatten) := by
    refine List.perm_iff_count.mpr (fun a => ?_)
    simp only [List.flatten_append, List.flatten_cons, List.count_append]; omega
  have h2 := hp.nodup_iff.mp h
  obtain ⟨h3, h4, h5⟩ := List.nodup_append.mp h2
  obtain ⟨h6, h7, h8⟩ := List.nodup_append.mp h3
  refine ⟨h6, h7, h3, fun a ha hc => h8 a ha a hc rfl, fun a ha => ⟨fun hA => h5 a (by simp [hA]) a ha rfl,
    fun hC => h5 a (by simp [hC]) a ha rfl⟩, h2⟩

theorem takes_of_legal {ext : List (List Addr)} {p : Addr} (h : ∃ c ∈ ext, c.head? = some p) :
    ∃ ys e1 e2, ext = e1 ++ (p :: ys) :: e2 := by
  obtain ⟨c, hc, hp⟩ := h
  obtain ⟨e1, e2, he⟩ := List.append_of_mem hc
  cases c with
  | nil => simp at hp
  | cons a ys => simp at hp; subst hp; exact ⟨ys, e1, e2, he⟩

/-- A non-empty list ends with an element. -/
theorem snoc (a : Addr) (l : List Addr) : ∃ l' q, a :: l = l' ++ [q] ∧ l'.length = l.length := by
  refine ⟨(a :: l).dropLast, (a :: l).getLast (by simp), by rw [List.dropLast_concat_getLast], by simp⟩

theorem perm_count {l1 l2 : List Addr} (h : ∀ a, l1.count a = l2.count a) : l1.Perm l2 := List.perm_iff_count.mpr h

theorem erase_split {main l1 l2 : List Addr} {q x : Addr} (e : root :: main = l1 ++ [q] ++ x :: l2)
    (hnd : (root :: main).Nodup) : root :: main.erase x = l1 ++ [q] ++ l2 ∧ x ∈ main ∧ x ≠ root := by
  have hx : x ∉ l1 ++ [q] := by rw [e] at hnd; grind
  have hxr : x ≠ root := by
    intro hxr
    cases l1 with
    | nil => simp at e; exact hx (by simp [← e.1, hxr])
    | cons b l1 => simp at e; exact hx (by simp [← e.1, hxr])
  have h1 : (root :: main).erase x = l1 ++ [q] ++ l2 := by
    rw [e, List.erase_append_right _ hx, List.erase_cons_head]
  have h2 : x ∈ root :: main := by rw [e]; simp
  rw [List.erase_cons_tail (by simpa using Ne.symm hxr)] at h1
  exact ⟨h1, (List.mem_cons.mp h2).resolve_left hxr, hxr⟩

theorem size_unlinked {main : List Addr} {x : Addr} (hx : x ∈ main) (n : Nat) (hn : n = main.length) :
    n - 1 = (main.erase x).length := by rw [List.length_erase_of_mem hx, hn]

/-- Extraction of the first element satisfying a test, on represented states. -/
theorem extract_rep {N tmp h w} (r : Rep N tmp h w) (t : Addr → Bool) (f : Nat) (hf : N < f) :
    (w.main.find? t = none ∧ extract h f t root = some (none, h)) ∨
    ∃ x h', w.main.find? t = some x ∧ x ∈ w.main ∧ extract h f t root = some (some x, h') ∧
      Rep N tmp h' ⟨w.main.erase x, [x] :: w.ext⟩ := by
  have hb := r.bound
  have hnd := r.nodup
  rcases findPrev_spec (t := t) r.main f (by omega) with ⟨h1, h2⟩ | ⟨l1, q, x, l2, e, h1, h2⟩
  · left; exact ⟨h1, by simp [extract, h2]⟩
  · right
    have hsg := r.main
    rw [e] at hsg
    obtain ⟨he, hx, hxr⟩ := erase_split e (by grind)
    obtain ⟨n, h', hq, hp, hs1, hs2, hsg', hp1, hfr, -, -⟩ := unlink_spec hsg (by grind)
    refine ⟨x, h', h1, hx, by simp [extract, h2, hp, hs1, hs2], ?_⟩
    have hmem : ∀ a ∈ w.ext.flatten, a ≠ q ∧ a ≠ x := by
      intro a ha
      have hq' : q ∈ root :: w.main := by rw [e]; simp
      constructor
      · rintro rfl; grind
      · rintro rfl; grind
    refine ⟨by simp only; rw [he]; exact hsg', ?_, ?_, ?_, ?_⟩
    · intro c hc
      rcases List.mem_cons.mp hc with rfl | hc
      · exact ⟨rfl, none, hp1, rfl⟩
      · exact ext_frame r.ext (fun a ha => hfr a (hmem a ha).1 (hmem a ha).2) c hc
    · refine (List.Perm.nodup_iff (perm_count fun a => ?_)).mp hnd
      simp only [List.flatten_cons, List.count_append, List.count_cons, List.count_erase, List.count_nil]
      have : w.main.count x ≥ 1 := List.count_pos_iff.mpr hx
      by_cases hax : x = a
      · subst hax; simp; omega
      · simp [hax]
    · have hq' : q ∈ root :: w.main := by rw [e]; simp
      have htm := r.tmp_main
      rw [hfr tmp (by rintro rfl; exact htm hq') (by rintro rfl; exact htm (by simp [hx]))]
      exact r.tmp
    · simp only [List.length_erase_of_mem hx, List.flatten_cons, List.length_append, List.length_singleton]
      have : 1 ≤ w.main.length := List.length_pos_of_mem hx
      omega

theorem step_spec {N tmp s w} (r : Rep N tmp s.heap w) (hsz : s.size = w.main.length) (f : Nat) (hf : 2 * N + 2 ≤ f)
    (op : Op) (hl : Legal tmp w op) (hnew : (∃ p, op = .new p) → w.main.length + w.ext.flatten.length < N) :
    ∃ o s' w', step f tmp s op = some (o, s') ∧ Ideal w op o w' ∧ Rep N tmp s'.heap w' ∧
      s'.size = w'.main.length ∧
      w'.main.length + w'.ext.flatten.length ≤ w.main.length + w.ext.flatten.length + 1 := by
  have hnd := r.nodup
  have hb := r.bound
  have hroot : ∃ n, s.heap root = some n ∧ Seg s.heap n w.main none := r.main.2
  obtain ⟨nr, hnr, hmain⟩ := hroot
  cases op with
  | new p =>
    obtain ⟨h1, h2, h3, h4⟩ := hl
    have hlt := hnew ⟨p, rfl⟩
    refine ⟨_, _, ⟨w.main, [p] :: w.ext⟩, rfl, ⟨rfl, rfl, rfl⟩, ?_, hsz, by simp [-List.length_flatten]; omega⟩
    refine ⟨seg_frame r.main ?_, ?_, ?_, ?_, by simp [-List.length_flatten]; omega⟩
    · intro a ha; simp only; rw [if_neg]; rintro rfl
      rcases List.mem_cons.mp ha with ha | ha
      · exact h1 ha
      · exact h3 ha
    · intro c hc
      rcases List.mem_cons.mp hc with rfl | hc
      · exact ⟨rfl, none, by simp, rfl⟩
      · refine ext_frame r.ext (fun a ha => ?_) c hc
        simp only; rw [if_neg]; rintro rfl; exact h4 ha
    · simp only [List.flatten_cons]; grind
    · simp only; rw [if_neg (Ne.symm h2)]; exact r.tmp
  | insert p =>
    obtain ⟨ys, e1, e2, he⟩ := takes_of_legal hl
    have hchain : Seg s.heap (some p) (p :: ys) none := r.ext (p :: ys) (by rw [he]; simp)
    rw [he] at hnd hb
    obtain ⟨hA, hC, hAC, hdAC, hdE, hall⟩ := split_nodup hnd
    simp only [List.flatten_append, List.flatten_cons, List.length_append, List.length_cons] at hb
    obtain ⟨c, q, hcq, hcl⟩ := snoc p ys
    have hsize := size_spec hchain f (by simp [-List.length_flatten]; omega)
    rw [hcq] at hchain
    obtain ⟨h', hi, hs', hfr⟩ := insert_spec (l1 := []) (l2 := w.main) (this := root) r.main hchain
      (by rw [← hcq]; exact hAC) f (by omega)
    rw [← hcq] at hs'
    have hq : q ∈ p :: ys := by rw [hcq]; simp
    refine ⟨.unit, ⟨h', s.size + (ys.length + 1)⟩, ⟨p :: ys ++ w.main, e1 ++ e2⟩, ?_,
      ⟨ys, e1 ++ e2, ⟨e1, e2, he, rfl⟩, rfl, rfl, rfl⟩, ?_, by simp [hsz, -List.length_flatten]; omega, by rw [he]; simp [-List.length_flatten]; omega⟩
    · simp [step, hsize, hi]
    · refine ⟨by simpa using hs', ext_frame (h := s.heap) (fun c hc => r.ext c (by rw [he]; grind)) ?_, ?_, ?_, by
        simp [-List.length_flatten]; omega⟩
      · intro a ha
        have hd := hdE a ha
        exact hfr a (by rintro rfl; exact hd.1 (by simp_all)) (by rintro rfl; exact hd.2 hq)
      · refine (List.Perm.nodup_iff (perm_count fun a => ?_)).mp hnd
        simp [List.count_append, List.count_cons]; omega
      · have h1 := r.tmp_main
        have h2 := r.tmp_ext (c := p :: ys) (by rw [he]; simp)
        simp only; rw [hfr tmp (by rintro rfl; simp_all) (by rintro rfl; simp_all)]; exact r.tmp
  | insertAt p i =>
    obtain ⟨ys, e1, e2, he⟩ := takes_of_legal hl
    have hchain : Seg s.heap (some p) (p :: ys) none := r.ext (p :: ys) (by rw [he]; simp)
    rw [he] at hnd hb
    obtain ⟨hA, hC, hAC, hdAC, hdE, hall⟩ := split_nodup hnd
    simp only [List.flatten_append, List.flatten_cons, List.length_append, List.length_cons] at hb
    obtain ⟨c, q, hcq, hcl⟩ := snoc p ys
    have hsize := size_spec hchain f (by simp [-List.length_flatten]; omega)
    rw [hcq] at hchain
    obtain ⟨l1, this, hk, hskip⟩ := skip_spec r.main i
    have hmain2 : Seg s.heap (some root) (l1 ++ [this] ++ w.main.drop i) none := by
      rw [← hk]; simpa using r.main
    have hlist : l1 ++ [this] ++ w.main.drop i = root :: w.main := by rw [← hk]; simp
    obtain ⟨h', hi, hs', hfr⟩ := insert_spec hmain2 hchain (by rw [← hcq, hlist]; exact hAC) f (by omega)
    rw [← hcq] at hs'
    have hq : q ∈ p :: ys := by rw [hcq]; simp
    have hthis : this ∈ root :: w.main := by rw [← hlist]; simp
    refine ⟨.unit, ⟨h', s.size + (ys.length + 1)⟩, ⟨w.main.take i ++ (p :: ys) ++ w.main.drop i, e1 ++ e2⟩, ?_,
      ⟨ys, e1 ++ e2, ⟨e1, e2, he, rfl⟩, rfl, rfl, rfl⟩, ?_, by simp [hsz, -List.length_flatten]; omega, by rw [he]; simp [-List.length_flatten]; omega⟩
    · simp [step, hskip, hsize, hi]
    · refine ⟨by rw [← hk] at hs'; simpa using hs',
        ext_frame (h := s.heap) (fun c hc => r.ext c (by rw [he]; grind)) ?_, ?_, ?_, by simp [-List.length_flatten]; omega⟩
      · intro a ha
        have hd := hdE a ha
        exact hfr a (by rintro rfl; exact hd.1 (by simp_all)) (by rintro rfl; exact hd.2 hq)
      · refine (List.Perm.nodup_iff (perm_count fun a => ?_)).mp hnd
        have ht := congrArg (List.count a) (List.take_append_drop i w.main)
        simp only [List.count_append] at ht
        simp [List.count_append, List.count_cons]; omega
      · have h1 := r.tmp_main
        have h2 := r.tmp_ext (c := p :: ys) (by rw [he]; simp)
        simp only; rw [hfr tmp (by rintro rfl; simp_all) (by rintro rfl; simp_all)]; exact r.tmp
  | insertSorted p cmp =>
    obtain ⟨hl, hcmp⟩ := hl
    obtain ⟨ys, e1, e2, he⟩ := takes_of_legal hl
    have hchain : Seg s.heap (some p) (p :: ys) none := r.ext (p :: ys) (by rw [he]; simp)
    have htm := r.tmp_main
    have hte := r.tmp_ext (c := p :: ys) (by rw [he]; simp)
    rw [he] at hnd hb
    obtain ⟨hA, hC, hAC, hdAC, hdE, hall⟩ := split_nodup hnd
    simp only [List.flatten_append, List.flatten_cons, List.length_append, List.length_cons] at hb
    have hsize := size_spec hchain f (by simp [-List.length_flatten]; omega)
    have key : ∃ h' c, insertSorted cmp s.heap f root p tmp = some h' ∧ c.Perm (p :: ys) ∧ Sorted cmp c ∧
        Seg h' (some root) (root :: mergeL cmp w.main c) none ∧ h' tmp = none ∧
        ∀ a, a ≠ tmp → a ∉ root :: w.main → a ∉ p :: ys → h' a = s.heap a := by
      have hch := hchain
      obtain ⟨_, n, hn, hy⟩ := hchain
      cases n with
      | none =>
        have hys : ys = [] := by cases ys with | nil => rfl | cons b l => simp [Seg] at hy
        subst hys
        obtain ⟨h', e', hs', hfr⟩ := merge_spec (cmp := cmp) f (l1 := []) (q := root) r.main hch hAC
          (by simp [-List.length_flatten]; omega)
        refine ⟨h', [p], by simp [insertSorted, hn, e'], .refl _, List.pairwise_singleton .., by simpa using hs',
          by rw [hfr tmp (by simp_all)]; exact r.tmp, fun a h0 h1 h2 => hfr a (by grind)⟩
      | some b =>
        have hs0 : Seg (fun a => if a = tmp then some (some p) else s.heap a) (some tmp) (tmp :: p :: ys) none := by
          refine ⟨rfl, some p, by simp, seg_frame hch (fun a ha => ?_)⟩
          rw [if_neg]; rintro rfl; exact hte ha
        obtain ⟨h1, c, e1', hs1, hp1, hso, hf1⟩ := bsort_spec (cmp := cmp) hs0 (by grind) f (by simp [-List.length_flatten]; omega)
        obtain ⟨_, nt, hnt, hsc⟩ := hs1
        have hfree := free_eq hnt
        generalize hg : (fun a => if a = tmp then none else h1 a) = h2 at hfree
        have h2t : h2 tmp = none := by rw [← hg]; simp
        have h2o : ∀ a, a ≠ tmp → h2 a = h1 a := by intro a ha; rw [← hg]; simp [ha]
        have hcm : ∀ a, a ∈ c ↔ a ∈ p :: ys := fun a => hp1.mem_iff
        have hsc2 : Seg h2 nt c none := seg_frame hsc (fun a ha => h2o a (by
          rintro rfl; exact hte ((hcm _).mp ha)))
        have hsm2 : Seg h2 (some root) (root :: w.main) none := seg_frame r.main (fun a ha => by
          have hat : a ≠ tmp := by rintro rfl; exact htm ha
          rw [h2o a hat, hf1 a (by grind)]; simp [hat])
        have hcnd : (root :: w.main ++ c).Nodup := by
          refine (List.Perm.nodup_iff (List.Perm.append_left _ hp1)).mpr hAC
        obtain ⟨h', e', hs', hfr⟩ := merge_spec (cmp := cmp) f (l1 := []) (q := root) hsm2 hsc2 hcnd
          (by rw [hp1.length_eq]; simp; omega)
        refine ⟨h', c, by simp [insertSorted, hn, e1', hnt, hfree, e'], hp1, hso hcmp, by simpa using hs', ?_, ?_⟩
        · rw [hfr tmp (by have := hcm tmp; grind)]; exact h2t
        · intro a h0 h1 h2
          rw [hfr a (by have := hcm a; grind), h2o a h0, hf1 a (by grind)]; simp [h0]
    obtain ⟨h', c, e', hpc, hso, hs', ht', hfr⟩ := key
    have hmp := (mergeL_perm cmp w.main c).trans (List.Perm.append_right w.main hpc)
    refine ⟨.unit, ⟨h', s.size + (ys.length + 1)⟩, ⟨mergeL cmp w.main c, e1 ++ e2⟩, by simp [step, hsize, e'],
      ⟨ys, e1 ++ e2, ⟨e1, e2, he, rfl⟩, rfl, hmp, mergeL_sublist .., fun h => mergeL_sorted hcmp _ _ h hso, rfl⟩, ?_,
      by simp only; rw [hmp.length_eq]; simp [hsz]; omega, by rw [he]; simp only; rw [hmp.length_eq]; simp [-List.length_flatten]; omega⟩
    refine ⟨hs', ext_frame (h := s.heap) (fun c hc => r.ext c (by rw [he]; grind)) ?_, ?_, ht', by
      simp only; rw [hmp.length_eq]; simp [-List.length_flatten]; omega⟩
    · intro a ha
      have hat : a ≠ tmp := by
        rintro rfl
        obtain ⟨c, hc, hac⟩ := List.mem_flatten.mp ha
        exact r.tmp_ext (c := c) (by rw [he]; grind) hac
      exact hfr a hat (hdE a ha).1 (hdE a ha).2
    · refine (List.Perm.nodup_iff (perm_count fun a => ?_)).mp hnd
      have := hmp.count_eq a
      simp [List.count_append, List.count_cons] at this ⊢; omega
  | add p =>
    obtain ⟨ys, e1, e2, he⟩ := takes_of_legal hl
    have hchain : Seg s.heap (some p) (p :: ys) none := r.ext (p :: ys) (by rw [he]; simp)
    rw [he] at hnd hb
    obtain ⟨hA, hC, hAC, hdAC, hdE, hall⟩ := split_nodup hnd
    simp only [List.flatten_append, List.flatten_cons, List.length_append, List.length_cons] at hb
    obtain ⟨l, q, hlq, hll⟩ := snoc root w.main
    have hmq := r.main
    rw [hlq] at hmq
    obtain ⟨h', hi, hs', hy', hfr⟩ := add_spec hmq hchain (by rw [← hlq]; exact hAC) f (by omega)
    have hq : q ∈ root :: w.main := by rw [hlq]; simp
    refine ⟨.unit, ⟨h', s.size + 1⟩, ⟨w.main ++ [p], ys :: (e1 ++ e2)⟩, by simp [step, hi],
      ⟨ys, e1 ++ e2, ⟨e1, e2, he, rfl⟩, rfl, rfl, rfl⟩, ?_, by simp [hsz], by rw [he]; simp [-List.length_flatten]; omega⟩
    refine ⟨by rw [← hlq] at hs'; simpa using hs', ?_, ?_, ?_, by simp [-List.length_flatten]; omega⟩
    · intro c hc
      rcases List.mem_cons.mp hc with rfl | hc
      · exact hy'
      · refine ext_frame (h := s.heap) (ext := e1 ++ e2) (fun c hc => r.ext c (by rw [he]; grind)) ?_ c hc
        intro a ha; have hd := hdE a ha; exact hfr a (by rintro rfl; exact hd.1 hq) (by rintro rfl; exact hd.2 (by simp))
    · refine (List.Perm.nodup_iff (perm_count fun a => ?_)).mp hnd
      simp [List.count_append, List.count_cons]; omega
    · have h1 := r.tmp_main
      have h2 := r.tmp_ext (c := p :: ys) (by rw [he]; simp)
      simp only; rw [hfr tmp (by rintro rfl; simp_all) (by rintro rfl; simp_all)]; exact r.tmp
  | addL p =>
    obtain ⟨ys, e1, e2, he⟩ := takes_of_legal hl
    have hchain : Seg s.heap (some p) (p :: ys) none := r.ext (p :: ys) (by rw [he]; simp)
    rw [he] at hnd hb
    obtain ⟨hA, hC, hAC, hdAC, hdE, hall⟩ := split_nodup hnd
    simp only [List.flatten_append, List.flatten_cons, List.length_append, List.length_cons] at hb
    have hsize := size_spec hchain f (by simp [-List.length_flatten]; omega)
    obtain ⟨l, q, hlq, hll⟩ := snoc root w.main
    have hmq := r.main
    rw [hlq] at hmq
    obtain ⟨h', hi, hs', hfr⟩ := addL_spec hmq hchain (by rw [← hlq]; exact hAC) f (by omega)
    have hq : q ∈ root :: w.main := by rw [hlq]; simp
    refine ⟨.unit, ⟨h', s.size + (ys.length + 1)⟩, ⟨w.main ++ p :: ys, e1 ++ e2⟩, by simp [step, hsize, hi],
      ⟨ys, e1 ++ e2, ⟨e1, e2, he, rfl⟩, rfl, rfl, rfl⟩, ?_, by simp [hsz], by rw [he]; simp [-List.length_flatten]; omega⟩
    refine ⟨by rw [← hlq] at hs'; simpa using hs',
      ext_frame (h := s.heap) (fun c hc => r.ext c (by rw [he]; grind)) ?_, ?_, ?_, by simp [-List.length_flatten]; omega⟩
    · intro a ha; have hd := hdE a ha; exact hfr a (by rintro rfl; exact hd.1 hq)
    · refine (List.Perm.nodup_iff (perm_count fun a => ?_)).mp hnd
      simp [List.count_append, List.count_cons]; omega
    · have h1 := r.tmp_main
      simp only; rw [hfr tmp (by rintro rfl; simp_all)]; exact r.tmp
  | extract p =>
    have hfind : ∀ x, w.main.find? (fun a => decide (a = p)) = some x → x = p := by
      intro x hx; simpa using List.find?_some hx
    rcases extract_rep r (fun a => decide (a = p)) f (by omega) with ⟨h1, h2⟩ | ⟨x, h', h1, hx, h2, r'⟩
    · have hp : p ∉ w.main := by
        intro hp; have := List.find?_eq_none.mp h1 p hp; simp at this
      exact ⟨_, s, w, by simp [step, h2]; rfl, by simp [Ideal, hp], r, hsz, by omega⟩
    · have := hfind x h1; subst this
      refine ⟨_, _, ⟨w.main.erase x, [x] :: w.ext⟩, by simp [step, h2]; exact ⟨rfl, rfl⟩, by simp [Ideal, hx], r',
        size_unlinked hx _ hsz, ?_⟩
      simp [List.length_erase_of_mem hx, -List.length_flatten]; omega
  | extractFilter t =>
    rcases extract_rep r t f (by omega) with ⟨h1, h2⟩ | ⟨x, h', h1, hx, h2, r'⟩
    · exact ⟨_, s, w, by simp [step, h2]; rfl, by simp [Ideal, h1], r, hsz, by omega⟩
    · refine ⟨_, _, ⟨w.main.erase x, [x] :: w.ext⟩, by simp [step, h2]; exact ⟨rfl, rfl⟩, by simp [Ideal, h1], r',
        size_unlinked hx _ hsz, ?_⟩
      simp [List.length_erase_of_mem hx, -List.length_flatten]; omega
  | extractAt i =>
    have hsk := skipAll_spec r.main i
    rcases Nat.lt_or_ge i w.main.length with hi | hi
    · -- the predecessor exists and has a successor
      have hlt : i < (root :: w.main).length := by simp [-List.length_flatten]; omega
      have e : root :: w.main = (root :: w.main).take i ++ [(root :: w.main)[i]] ++ w.main[i] :: w.main.drop (i + 1) := by
        have h1 := (List.take_append_drop i (root :: w.main)).symm
        rw [List.drop_eq_getElem_cons hlt] at h1
        simp only [List.drop_succ_cons] at h1
        rw [List.drop_eq_getElem_cons hi] at h1
        simpa using h1
      rw [List.getElem?_eq_getElem hlt] at hsk
      generalize (root :: w.main)[i] = q at *
      generalize (root :: w.main).take i = l1 at *
      have hx : w.main[i]? = some w.main[i] := List.getElem?_eq_getElem hi
      have herase : w.main.eraseIdx i = w.main.erase w.main[i] := by
        have h1 : w.main = w.main.take i ++ w.main[i] :: w.main.drop (i + 1) := by simp
        have hm : w.main.Nodup := by grind
        have hni : w.main[i] ∉ w.main.take i := by rw [h1] at hm; grind
        have h2 := congrArg (List.erase · w.main[i]) h1
        rw [List.erase_append_right _ hni, List.erase_cons_head] at h2
        rw [h2, List.eraseIdx_eq_take_drop_succ]
      generalize hxd : w.main[i] = x at *
      generalize w.main.drop (i + 1) = l2 at *
      have hsg := r.main
      rw [e] at hsg
      obtain ⟨hee, hxm, hxr⟩ := erase_split e (by grind)
      obtain ⟨n, h', hq, hp, hs1, hs2, hsg', hp1, hfr, -, -⟩ := unlink_spec hsg (by grind)
      have hq' : q ∈ root :: w.main := by rw [e]; simp
      refine ⟨.elem (some x), ⟨h', s.size - 1⟩, ⟨w.main.erase x, [x] :: w.ext⟩, by simp [step, hsk, hq, hp, hs1, hs2],
        by simp only [Ideal, hx, herase]; exact ⟨trivial, trivial, trivial⟩, ?_, size_unlinked hxm _ hsz, ?_⟩
      · refine ⟨by simp only; rw [hee]; exact hsg', ?_, ?_, ?_, ?_⟩
        · intro c hc
          rcases List.mem_cons.mp hc with rfl | hc
          · exact ⟨rfl, none, hp1, rfl⟩
          · exact ext_frame r.ext (fun a ha => hfr a (by rintro rfl; grind) (by rintro rfl; grind)) c hc
        · refine (List.Perm.nodup_iff (perm_count fun a => ?_)).mp hnd
          simp only [List.flatten_cons, List.count_append, List.count_cons, List.count_erase, List.count_nil]
          have : w.main.count x ≥ 1 := List.count_pos_iff.mpr hxm
          by_cases hax : x = a
          · subst hax; simp; omega
          · simp [hax]
        · have htm := r.tmp_main
          simp only; rw [hfr tmp (by rintro rfl; exact htm hq') (by rintro rfl; exact htm (by simp [hxm]))]
          exact r.tmp
        · simp only [List.length_erase_of_mem hxm, List.flatten_cons, List.length_append, List.length_singleton]
          omega
      · simp only [List.length_erase_of_mem hxm, List.flatten_cons, List.length_append, List.length_singleton]
        omega
    · have hnone : w.main[i]? = none := List.getElem?_eq_none hi
      refine ⟨.elem none, s, w, ?_, by simp only [Ideal, hnone]; exact ⟨trivial, trivial⟩, r, hsz, by omega⟩
      rcases Nat.lt_or_ge i (root :: w.main).length with hi2 | hi2
      · rw [List.getElem?_eq_getElem hi2] at hsk
        obtain ⟨l, q, hlq, hll⟩ := snoc root w.main
        have : (root :: w.main)[i] = q := by
          have : i = l.length := by simp at hi2; omega
          simp [hlq, this]
        have hq : s.heap q = some none := by
          have := r.main; rw [hlq] at this; exact seg_last this
        simp [step, hsk, this, hq]
      · rw [List.getElem?_eq_none hi2] at hsk
        simp [step, hsk]
  | delete p =>
    have hfind : ∀ x, w.main.find? (fun a => decide (a = p)) = some x → x = p := by
      intro x hx; simpa using List.find?_some hx
    rcases extract_rep r (fun a => decide (a = p)) f (by omega) with ⟨h1, h2⟩ | ⟨x, h', h1, hx, h2, r'⟩
    · have hp : p ∉ w.main := by
        intro hp; have := List.find?_eq_none.mp h1 p hp; simp at this
      exact ⟨_, s, w, by simp [step, h2]; rfl, by simp [Ideal, hp], r, hsz, by omega⟩
    · have := hfind x h1; subst this
      obtain ⟨-, n, hn, -⟩ := r'.ext [x] (by simp)
      refine ⟨_, _, ⟨w.main.erase x, w.ext⟩, by simp [step, h2, free_eq hn]; exact ⟨rfl, rfl⟩, by simp [Ideal, hx], ?_,
        size_unlinked hx _ hsz, by simp [List.length_erase_of_mem hx, -List.length_flatten]; omega⟩
      have hnd' := r'.nodup
      have hb' := r'.bound
      simp only [List.flatten_cons] at hnd' hb'
      refine ⟨seg_frame r'.main ?_, ext_frame (h := h') (fun c hc => r'.ext c (by simp [hc])) ?_, by grind, ?_, by
        simp [-List.length_flatten] at hb' ⊢; omega⟩
      · intro a ha; simp only at ha ⊢; rw [if_neg]; rintro rfl; grind
      · intro a ha; simp only at ha ⊢; rw [if_neg]; rintro rfl; grind
      · simp only; split
        · rfl
        · exact r'.tmp
  | deleteFilter t =>
    obtain ⟨h', e', hs', hfr⟩ := deleteAll_spec (t := t) (l1 := []) (q := root) r.main (by simp; grind) f (by omega)
    have hcnt : w.main.length - w.main.countP t = (w.main.filter (fun a => !t a)).length := by
      have := List.length_eq_countP_add_countP t (l := w.main)
      rw [← List.countP_eq_length_filter]
      simp only [Bool.not_eq_true] at this
      have h2 : w.main.countP (fun a => decide (t a = false)) = w.main.countP (fun a => !t a) := by
        congr 1; funext a; cases t a <;> rfl
      omega
    have hle : (w.main.filter (fun a => !t a)).length ≤ w.main.length := List.length_filter_le ..
    refine ⟨.flag (decide (w.main.countP t > 0)), ⟨h', s.size - w.main.countP t⟩,
      ⟨w.main.filter (fun a => !t a), w.ext⟩, by simp [step, e'], ⟨?_, rfl, rfl⟩, ?_, by simp only; omega, by
        simp only; omega⟩
    · congr 1
      rw [Bool.eq_iff_iff]; simp [List.countP_pos_iff]
    · refine ⟨by simpa using hs', ext_frame r.ext (fun a ha => hfr a (by grind)), ?_, ?_, by simp only; omega⟩
      · have : (root :: w.main.filter (fun a => !t a) ++ w.ext.flatten).Sublist (root :: w.main ++ w.ext.flatten) :=
          List.Sublist.append_right (List.Sublist.cons_cons _ List.filter_sublist) _
        exact this.nodup hnd
      · simp only; rw [hfr tmp r.tmp_main]; exact r.tmp
  | search p =>
    have h1 := search_spec (t := fun a => decide (a = p)) hmain f (by omega)
    refine ⟨_, s, w, by simp [step, hnr, h1]; rfl, ⟨?_, rfl⟩, r, hsz, by omega⟩
    congr 1
    rw [Bool.eq_iff_iff]; simp
  | searchFilter t =>
    have h1 := search_spec (t := t) hmain f (by omega)
    exact ⟨_, s, w, by simp [step, hnr, h1], ⟨rfl, rfl⟩, r, hsz, by omega⟩
  | peek i =>
    exact ⟨_, s, w, by simp [step, hnr, peek_spec hmain i], ⟨rfl, rfl⟩, r, hsz, by omega⟩
  | sort cmp =>
    obtain ⟨h', l', e', hs', hp, hso, hfr⟩ := bsort_spec (cmp := cmp) r.main (by grind) f (by omega)
    refine ⟨.unit, ⟨h', s.size⟩, ⟨l', w.ext⟩, by simp [step, e'], ⟨rfl, hp, hso hl, rfl⟩, ?_,
      by simp only; rw [hp.length_eq, hsz], by simp only; rw [hp.length_eq]; omega⟩
    refine ⟨hs', ext_frame r.ext (fun a ha => hfr a (by grind)), ?_, ?_, by simp only; rw [hp.length_eq]; exact hb⟩
    · exact (List.Perm.nodup_iff (List.Perm.append_right _ (hp.cons root))).mpr hnd
    · simp only; rw [hfr tmp r.tmp_main]; exact r.tmp

theorem run_spec (ops : List Op) {N tmp s w} (r : Rep N tmp s.heap w) (hsz : s.size = w.main.length)
    (hN : w.main.length + w.ext.flatten.length + ops.length ≤ N) (f : Nat) (hf : 2 * N + 2 ≤ f)
    (hl : AllLegal tmp w ops) :
    ∃ os s' w', run f tmp s ops = some (os, s') ∧ IdealRun w ops os w' ∧ Rep N tmp s'.heap w' ∧
      s'.size = w'.main.length := by
  induction ops generalizing s w with
  | nil => exact ⟨[], s, w, rfl, .nil w, r, hsz⟩
  | cons op ops ih =>
    obtain ⟨o, s1, w1, e1, i1, r1, hs1, hb1⟩ := step_spec r hsz f hf op hl.1 (by simp [-List.length_flatten] at hN; omega)
    obtain ⟨os, s2, w2, e2, i2, r2, hs2⟩ := ih r1 hs1 (by simp [-List.length_flatten] at hN; omega) (hl.2 _ _ i1)
    exact ⟨o :: os, s2, w2, by simp [run, e1, e2], .cons i1 i2, r2, hs2⟩

/-- **C02 and C03.**  For every legal history of calls on a new list (elements created by the caller, inserted once):
no call dereferences a dead object, every loop terminates, the results are those of the ideal sequence, walking the
list afterwards visits exactly the ideal sequence and `ListSize` is its length.  The ideal sequence after `ListBSort`
and sorted insertion is an ordered permutation. -/
theorem c02_history (tmp : Addr) (htmp : tmp ≠ root) (ops : List Op) (hl : AllLegal tmp ⟨[], []⟩ ops) (f : Nat)
    (hf : 2 * ops.length + 2 ≤ f) :
    ∃ os s w n, run f tmp empty ops = some (os, s) ∧ IdealRun ⟨[], []⟩ ops os w ∧
      s.heap root = some n ∧ walk s.heap f n = some w.main ∧ s.size = w.main.length := by
  have r : Rep ops.length tmp empty.heap ⟨[], []⟩ := by
    refine ⟨⟨rfl, none, by simp [empty], rfl⟩, by simp, by simp, by simp [empty, htmp], by simp⟩
  obtain ⟨os, s, w, e, hi, r', hs⟩ := run_spec ops r rfl (by simp) f hf hl
  obtain ⟨_, n, hn, hseg⟩ := r'.main
  have := r'.bound
  exact ⟨os, s, w, n, e, hi, hn, walk_spec hseg f (by omega), hs⟩

/-- **C03.**  Sorting a well-formed list relinks the same elements in an order in which no element is placed after a
greater one: the list afterwards is an ordered permutation of the list before. -/
theorem c03_sort (cmp : Addr → Addr → Int) (hc : TotalPreorder cmp) (h : Heap) (this : Addr) (n : Option Addr)
    (l : List Addr) (hnd : (this :: l).Nodup) (f : Nat) (hf : l.length < f) (hthis : h this = some n)
    (hl : walk h f n = some l) :
    ∃ h' n' l', bsort cmp h f this = some h' ∧ h' this = some n' ∧ walk h' f n' = some l' ∧ l'.Perm l ∧
      Sorted cmp l' ∧ (∀ a, a ∉ this :: l → h' a = h a) := by
  have hseg : ∀ (f : Nat) (n : Option Addr) (l : List Addr), walk h f n = some l → Seg h n l none := by
    intro f
    induction f with
    | zero => intro n l h; simp [walk] at h
    | succ f ih =>
      intro n l hw
      cases n with
      | none => simp [walk] at hw; subst hw; rfl
      | some a =>
        simp only [walk] at hw
        cases ha : h a with
        | none => simp [ha] at hw
        | some m =>
          simp [ha] at hw
          obtain ⟨l', h1, rfl⟩ := hw
          exact ⟨rfl, m, ha, ih _ _ h1⟩
  obtain ⟨h', l', e, hs, hp, hso, hfr⟩ := bsort_spec (cmp := cmp) ⟨rfl, n, hthis, hseg f n l hl⟩ hnd f (by omega)
  obtain ⟨_, n', hn', hs'⟩ := hs
  exact ⟨h', n', l', e, hn', walk_spec hs' f (by rw [hp.length_eq]; exact hf), hp, hso hc, hfr⟩

/-- A concrete history: three elements, sorted by address. -/
def demoCmp (a b : Addr) : Int := (a : Int) - b
theorem demoCmp_preorder : TotalPreorder demoCmp := ⟨by intro a b; simp [demoCmp]; omega, by
  intro a b c; simp only [demoCmp]; omega⟩

/-- A legal history meeting the hypotheses of `c02_history`. -/
example : AllLegal 99 ⟨[], []⟩ [.new 3, .new 5, .insert 5, .insertSorted 3 demoCmp, .sort demoCmp, .extract 5] := by
  refine ⟨by simp [Legal, root], ?_⟩
  rintro o ⟨m, e⟩ ⟨-, rfl, rfl⟩
  refine ⟨by simp [Legal, root], ?_⟩
  rintro o ⟨m, e⟩ ⟨-, rfl, rfl⟩
  refine ⟨⟨[5], by simp, rfl⟩, ?_⟩
  rintro o ⟨m, e⟩ ⟨ys, rest, ⟨e1, e2, h1, rfl⟩, -, rfl, rfl⟩
  simp only at h1
  have h3 : [3] ∈ e1 ++ e2 := by
    have : ([3] : List Addr) ∈ e1 ++ (5 :: ys) :: e2 := by rw [← h1]; simp
    simpa using this
  refine ⟨⟨⟨[3], h3, rfl⟩, demoCmp_preorder⟩, ?_⟩
  intro o w _
  exact ⟨demoCmp_preorder, fun _ _ _ => ⟨trivial, fun _ _ _ => trivial⟩⟩

example : ((run 20 99 empty [.new 5, .new 3, .new 4, .insert 5, .add 3, .insertAt 4 1, .sort demoCmp, .peek 0,
    .extractAt 1, .search 4]).bind (fun r => (r.2.heap root).bind fun n => (walk r.2.heap 20 n).map fun l =>
      (l, r.2.size, r.1.drop 7))) = some ([3, 5], 2, [.elem (some 3), .elem (some 4), .flag false]) := by decide

end Verif.LinkedList
