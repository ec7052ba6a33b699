import Verif.Spec.LinkedList
namespace Verif.LinkedList

/-- Heap with the `next` field of `p` replaced. -/
def upd (h : Heap) (p : Addr) (v : Option Addr) : Heap := fun a => if a = p then some v else h a

/-- List segment: following `next` from `s` visits `l` and ends at `e`. -/
def Seg (h : Heap) : Option Addr → List Addr → Option Addr → Prop
  | s, [], e => s = e
  | s, a :: l, e => s = some a ∧ ∃ n, h a = some n ∧ Seg h n l e

theorem seg_append {h : Heap} {s e : Option Addr} {l1 l2 : List Addr} :
    Seg h s (l1 ++ l2) e ↔ ∃ m, Seg h s l1 m ∧ Seg h m l2 e := by
  induction l1 generalizing s with
  | nil => simp [Seg]
  | cons a l ih =>
    simp only [List.cons_append, Seg, ih]
    constructor
    · rintro ⟨hs, n, hn, m, h1, h2⟩; exact ⟨m, ⟨hs, n, hn, h1⟩, h2⟩
    · rintro ⟨m, ⟨hs, n, hn, h1⟩, h2⟩; exact ⟨hs, n, hn, m, h1, h2⟩

theorem seg_frame {h h' : Heap} {s e : Option Addr} {l : List Addr} (hs : Seg h s l e)
    (hf : ∀ a ∈ l, h' a = h a) : Seg h' s l e := by
  induction l generalizing s with
  | nil => exact hs
  | cons a l ih =>
    obtain ⟨h1, n, hn, h2⟩ := hs
    exact ⟨h1, n, by rw [hf a (by simp)]; exact hn, ih h2 (fun b hb => hf b (by simp [hb]))⟩

theorem seg_live {h : Heap} {s e : Option Addr} {l : List Addr} (hs : Seg h s l e) {a : Addr} (ha : a ∈ l) :
    ∃ n, h a = some n := by
  induction l generalizing s with
  | nil => simp at ha
  | cons b l ih =>
    obtain ⟨h1, n, hn, h2⟩ := hs
    rcases List.mem_cons.mp ha with rfl | ha
    · exact ⟨n, hn⟩
    · exact ih h2 ha

theorem setNext_eq {h : Heap} {p : Addr} {n : Option Addr} (hp : h p = some n) (v : Option Addr) :
    setNext h p v = some (upd h p v) := by simp only [setNext, hp]; rfl

theorem upd_self (h : Heap) (p : Addr) (v : Option Addr) : upd h p v p = some v := by simp [upd]
theorem upd_other (h : Heap) {p a : Addr} (v : Option Addr) (hne : a ≠ p) : upd h p v a = h a := by simp [upd, hne]

theorem seg_upd {h : Heap} {s e v : Option Addr} {l : List Addr} {p : Addr} (hs : Seg h s l e) (hp : p ∉ l) :
    Seg (upd h p v) s l e :=
  seg_frame hs (fun a ha => upd_other h v (fun he => hp (he ▸ ha)))

/-- Redirecting the last pointer of a segment. -/
theorem seg_relink {h : Heap} {s e v : Option Addr} {l : List Addr} {q : Addr} (hs : Seg h s (l ++ [q]) e)
    (hq : q ∉ l) : Seg (upd h q v) s (l ++ [q]) v := by
  rw [seg_append] at hs ⊢
  obtain ⟨m, h1, h2, _⟩ := hs
  exact ⟨m, seg_upd h1 hq, h2, v, upd_self .., rfl⟩

theorem size_spec {h : Heap} {l : List Addr} {s : Option Addr} (hs : Seg h s l none) (f : Nat) (hf : l.length < f) :
    size h f s = some l.length := by
  induction l generalizing s f with
  | nil => cases hs; cases f <;> simp_all [size]
  | cons a l ih =>
    obtain ⟨rfl, n, hn, h2⟩ := hs
    cases f with
    | zero => simp at hf
    | succ f => simp [size, hn, ih h2 f (by simpa using hf)]

theorem walk_spec {h : Heap} {l : List Addr} {s : Option Addr} (hs : Seg h s l none) (f : Nat) (hf : l.length < f) :
    walk h f s = some l := by
  induction l generalizing s f with
  | nil => cases hs; cases f <;> simp_all [walk]
  | cons a l ih =>
    obtain ⟨rfl, n, hn, h2⟩ := hs
    cases f with
    | zero => simp at hf
    | succ f => simp [walk, hn, ih h2 f (by simpa using hf)]

theorem last_spec {h : Heap} {l : List Addr} {p q : Addr} (hs : Seg h (some p) (l ++ [q]) none) (f : Nat)
    (hf : l.length < f) : last h f p = some q := by
  induction l generalizing p f with
  | nil =>
    obtain ⟨h1, n, hn, h2⟩ := hs
    cases h1; cases h2
    cases f with
    | zero => simp at hf
    | succ f => simp [last, hn]
  | cons a l ih =>
    obtain ⟨h1, n, hn, h2⟩ := hs
    cases h1
    cases f with
    | zero => simp at hf
    | succ f =>
      cases n with
      | none => cases l <;> simp [Seg] at h2
      | some b => simp [last, hn, ih h2 f (by simpa using hf)]

/-- The start of a non-empty segment. -/
theorem seg_head {h : Heap} {s e : Option Addr} {a : Addr} {l : List Addr} (hs : Seg h s (a :: l) e) : s = some a :=
  hs.1

/-- `Insert` of a chain after `this`. -/
theorem insert_spec {h : Heap} {s : Option Addr} {l1 l2 c : List Addr} {this p q : Addr}
    (hm : Seg h s (l1 ++ [this] ++ l2) none) (hc : Seg h (some p) (c ++ [q]) none)
    (hnd : (l1 ++ [this] ++ l2 ++ (c ++ [q])).Nodup) (f : Nat) (hf : c.length < f) :
    ∃ h', insert h f this p = some h' ∧ Seg h' s (l1 ++ [this] ++ (c ++ [q]) ++ l2) none ∧
      ∀ a, a ≠ this → a ≠ q → h' a = h a := by
  rw [seg_append] at hm
  obtain ⟨n, hm1, hm2⟩ := hm
  have hthis : h this = some n := by
    rw [seg_append] at hm1; obtain ⟨m, _, _, n', hn, h3⟩ := hm1; rw [hn, h3]
  have d1 : this ∉ l1 := by grind
  have d2 : this ∉ l2 := by grind
  have d3 : this ∉ c ++ [q] := by grind
  have d4 : q ∉ c := by grind
  have d5 : q ∉ l1 ++ [this] := by grind
  have d6 : q ∉ l2 := by grind
  have hc1 : Seg (upd h this (some p)) (some p) (c ++ [q]) none := seg_upd hc d3
  have hq : upd h this (some p) q = h q := upd_other _ _ (by grind)
  obtain ⟨nq, hnq⟩ := seg_live hc (show q ∈ c ++ [q] by simp)
  refine ⟨upd (upd h this (some p)) q n, ?_, ?_, ?_⟩
  · simp [insert, hthis, setNext_eq hthis, last_spec hc1 f hf, setNext_eq (hq.trans hnq)]
  · rw [seg_append]
    refine ⟨n, ?_, seg_upd (seg_upd hm2 d2) d6⟩
    rw [seg_append]
    exact ⟨some p, seg_upd (seg_relink hm1 d1) d5, seg_relink hc1 d4⟩
  · intro a h1 h2; rw [upd_other _ _ h2, upd_other _ _ h1]

theorem addL_spec {h : Heap} {l c : List Addr} {this p q : Addr}
    (hm : Seg h (some this) (l ++ [q]) none) (hc : Seg h (some p) c none)
    (hnd : (l ++ [q] ++ c).Nodup) (f : Nat) (hf : l.length < f) :
    ∃ h', addL h f this p = some h' ∧ Seg h' (some this) (l ++ [q] ++ c) none ∧ ∀ a, a ≠ q → h' a = h a := by
  obtain ⟨nq, hnq⟩ := seg_live hm (show q ∈ l ++ [q] by simp)
  refine ⟨upd h q (some p), by simp [addL, last_spec hm f hf, setNext_eq hnq], ?_, fun a ha => upd_other _ _ ha⟩
  rw [seg_append]
  exact ⟨some p, seg_relink hm (by grind), seg_upd hc (by grind)⟩

theorem add_spec {h : Heap} {l ys : List Addr} {this p q : Addr}
    (hm : Seg h (some this) (l ++ [q]) none) (hc : Seg h (some p) (p :: ys) none)
    (hnd : (l ++ [q] ++ p :: ys).Nodup) (f : Nat) (hf : l.length < f) :
    ∃ h', add h f this p = some h' ∧ Seg h' (some this) (l ++ [q] ++ [p]) none ∧ Seg h' ys.head? ys none ∧
      ∀ a, a ≠ q → a ≠ p → h' a = h a := by
  obtain ⟨nq, hnq⟩ := seg_live hm (show q ∈ l ++ [q] by simp)
  obtain ⟨_, np, hnp, hy⟩ := hc
  have hpq : p ≠ q := by grind
  have hys : Seg h ys.head? ys none := by
    cases ys with
    | nil => rfl
    | cons y ys => have := hy.1; subst this; exact hy
  refine ⟨upd (upd h q (some p)) p none, ?_, ?_, ?_, fun a h1 h2 => by rw [upd_other _ _ h2, upd_other _ _ h1]⟩
  · simp [add, last_spec hm f hf, setNext_eq hnq, setNext_eq ((upd_other h (some p) hpq).trans hnp)]
  · rw [seg_append]
    exact ⟨some p, seg_upd (seg_relink hm (by grind)) (by grind), rfl, none, upd_self .., rfl⟩
  · exact seg_upd (seg_upd hys (by grind)) (by grind)

theorem search_spec {h : Heap} {t : Addr → Bool} {l : List Addr} {s : Option Addr} (hs : Seg h s l none) (f : Nat)
    (hf : l.length < f) : search h t f s = some (l.find? t) := by
  induction l generalizing s f with
  | nil => cases hs; cases f <;> simp_all [search]
  | cons a l ih =>
    obtain ⟨rfl, n, hn, h2⟩ := hs
    cases f with
    | zero => simp at hf
    | succ f =>
      simp only [search, List.find?_cons, hn, Option.bind_some, ih h2 f (by simpa using hf)]
      cases t a <;> simp

theorem peek_spec {h : Heap} {l : List Addr} {s : Option Addr} (hs : Seg h s l none) (i : Nat) :
    peek h i s = some l[i]? := by
  induction l generalizing s i with
  | nil => cases hs; cases i <;> simp [peek]
  | cons a l ih =>
    obtain ⟨rfl, n, hn, h2⟩ := hs
    cases i with
    | zero => simp [peek]
    | succ i => simp [peek, hn, ih h2 i]

theorem skip_spec {h : Heap} {l : List Addr} {p : Addr} (hs : Seg h (some p) (p :: l) none) (i : Nat) :
    ∃ l1 q, p :: l.take i = l1 ++ [q] ∧ skip h i p = some q := by
  induction l generalizing p i with
  | nil =>
    obtain ⟨_, n, hn, h2⟩ := hs
    cases h2
    refine ⟨[], p, by simp, ?_⟩
    cases i <;> simp [skip, hn]
  | cons a l ih =>
    obtain ⟨_, n, hn, h2⟩ := hs
    have := seg_head h2; subst this
    cases i with
    | zero => exact ⟨[], p, by simp, by rw [skip]; simp [hn]⟩
    | succ i =>
      obtain ⟨l1, q, e, hk⟩ := ih h2 i
      refine ⟨p :: l1, q, by simp [e], ?_⟩
      rw [skip]; simp [hn, hk]

theorem skipAll_spec {h : Heap} {l : List Addr} {s : Option Addr} (hs : Seg h s l none) (i : Nat) :
    skipAll h i s = some l[i]? := by
  induction l generalizing s i with
  | nil => cases hs; cases i <;> simp [skipAll]
  | cons a l ih =>
    obtain ⟨rfl, n, hn, h2⟩ := hs
    cases i with
    | zero => simp [skipAll]
    | succ i => simp [skipAll, hn, ih h2 i]

/-- Removing the element after `q`. -/
theorem unlink_spec {h : Heap} {s : Option Addr} {l1 l2 : List Addr} {q p : Addr}
    (hm : Seg h s (l1 ++ [q] ++ p :: l2) none) (hnd : (l1 ++ [q] ++ p :: l2).Nodup) :
    ∃ n h', h q = some (some p) ∧ h p = some n ∧ setNext h q n = some (upd h q n) ∧
      setNext (upd h q n) p none = some h' ∧ Seg h' s (l1 ++ [q] ++ l2) none ∧ h' p = some none ∧
      (∀ a, a ≠ q → a ≠ p → h' a = h a) ∧ Seg (upd h q n) s (l1 ++ [q] ++ l2) none ∧ upd h q n p = some n := by
  rw [seg_append] at hm
  obtain ⟨m, h1, h2, n, hn, h3⟩ := hm
  subst h2
  have hq : h q = some (some p) := by
    rw [seg_append] at h1; obtain ⟨m, _, _, n', hn', h4⟩ := h1; rw [hn', h4]
  have hpq : p ≠ q := by grind
  have hs1 : Seg (upd h q n) s (l1 ++ [q] ++ l2) none := by
    rw [seg_append]; exact ⟨n, seg_relink h1 (by grind), seg_upd h3 (by grind)⟩
  have hp1 : upd h q n p = some n := (upd_other _ _ hpq).trans hn
  refine ⟨n, upd (upd h q n) p none, hq, hn, setNext_eq hq _, setNext_eq hp1 _, seg_upd hs1 (by grind), upd_self ..,
    fun a h1 h2 => by rw [upd_other _ _ h2, upd_other _ _ h1], hs1, hp1⟩

theorem findPrev_spec {h : Heap} {t : Addr → Bool} {l : List Addr} {p : Addr} (hs : Seg h (some p) (p :: l) none)
    (f : Nat) (hf : l.length < f) :
    (l.find? t = none ∧ findPrev h t f p = some none) ∨
    ∃ l1 q x l2, p :: l = l1 ++ [q] ++ x :: l2 ∧ l.find? t = some x ∧ findPrev h t f p = some (some (q, x)) := by
  induction l generalizing p f with
  | nil =>
    obtain ⟨_, n, hn, h2⟩ := hs
    cases h2
    cases f with
    | zero => simp at hf
    | succ f => left; simp [findPrev, hn]
  | cons a l ih =>
    obtain ⟨_, n, hn, h2⟩ := hs
    have := seg_head h2; subst this
    cases f with
    | zero => simp at hf
    | succ f =>
      cases ht : t a with
      | true => right; exact ⟨[], p, a, l, rfl, by simp [ht], by simp [findPrev, hn, ht]⟩
      | false =>
        rcases ih h2 f (by simpa using hf) with ⟨h3, h4⟩ | ⟨l1, q, x, l2, h3, h4, h5⟩
        · left; simp [ht, h3, findPrev, hn, h4]
        · right; exact ⟨p :: l1, q, x, l2, by simp [h3], by simp [ht, h4], by simp [findPrev, hn, ht, h5]⟩

end Verif.LinkedList
