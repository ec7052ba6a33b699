import Verif.Spec.AnyObject
/-!
# Copies of values: lemmas
-/
set_option linter.unusedSimpArgs false
set_option maxRecDepth 8000
namespace Verif.AnyObject
open Spec

theorem Mem.ext' {a b : Mem} (h1 : a.next = b.next) (h2 : ∀ p, a.cells p = b.cells p) : a = b := by
  cases a; cases b
  simp only [Mem.mk.injEq]
  exact ⟨h1, funext h2⟩

theorem ne_zero {m : Mem} (hs : Sound m) {p b} (h : m.cells p = some b) : p ≠ 0 := by
  intro hp; rw [hp, hs.2.1] at h; cases h

theorem lt_next {m : Mem} (hs : Sound m) {p b} (h : m.cells p = some b) : p < m.next := by
  rcases Nat.lt_or_ge p m.next with h1 | h1
  · exact h1
  · rw [hs.2.2 p h1] at h; cases h

theorem malloc_pos (m : Mem) {n : Nat} (h : 0 < n) :
    malloc m n = (m.next, Mem.mk (m.next + 1) (fun q => if q = m.next then some (List.replicate n .junk) else m.cells q)) := by
  unfold malloc
  rw [if_neg (by omega)]

theorem zeroAt_text : ∀ (s : List Word), Word.byte 0 ∉ s → ∀ rest, zeroAt (s ++ .byte 0 :: rest) = some s.length
  | [], _, rest => by simp [zeroAt]
  | w :: ws, h, rest => by
    have h1 : w ≠ .byte 0 := fun e => h (by simp [e])
    have h2 : Word.byte 0 ∉ ws := fun e => h (by simp [e])
    simp only [List.cons_append, zeroAt, if_neg h1, zeroAt_text ws h2 rest, Option.map_some, List.length_cons]

theorem copy_ok {m : Mem} {dst src : Nat} {b rest d : List Word} (h1 : src ≠ 0) (h2 : dst ≠ 0)
    (hs : m.cells src = some (b ++ rest)) (hd : m.cells dst = some d) (hl : d.length = b.length) :
    copy m dst src b.length = some (true, put m dst b) := by
  unfold copy
  rw [if_pos ⟨h1, h2⟩, hs, hd]
  dsimp only
  rw [if_pos ⟨by simp, by omega⟩]
  have h3 : (b ++ rest).take b.length ++ d.drop b.length = b := by
    rw [List.take_left', ← hl, List.drop_length, List.append_nil]; rfl
  rw [h3]

/-- The memory after a new block with the cells `b`, its address being kept in cell `i` of the table `dst`. -/
def afterBlock (m : Mem) (dst i : Nat) (ws b : List Word) : Mem :=
  Mem.mk (m.next + 1) (fun p => if p = m.next then some b else if p = dst then some (ws.set i (.ptr m.next)) else m.cells p)

theorem copyString_ok {m : Mem} (hs : Sound m) {token : Nat} {s : List Word} (ht : Text m token s) {dst i : Nat} {ws : List Word}
    (hd : m.cells dst = some ws) (hi : i < ws.length) (hne : token ≠ dst) :
    copyString m dst i token = some (true, afterBlock m dst i ws (s ++ [.byte 0])) := by
  obtain ⟨hz, rest, hc⟩ := ht
  have ht0 := ne_zero hs hc
  have htl := lt_next hs hc
  have hdl := lt_next hs hd
  have hlen : strLength m token = some s.length := by
    unfold strLength
    rw [if_neg ht0, hc]
    exact zeroAt_text s hz rest
  unfold copyString
  rw [hlen]
  dsimp only
  rw [malloc_pos m (Nat.succ_pos s.length)]
  dsimp only
  have hst : store (Mem.mk (m.next + 1) (fun q => if q = m.next then some (List.replicate (s.length + 1) Word.junk) else m.cells q))
      dst i (.ptr m.next) = some (Mem.mk (m.next + 1) (fun p => if p = dst then some (ws.set i (.ptr m.next)) else
        if p = m.next then some (List.replicate (s.length + 1) Word.junk) else m.cells p)) := by
    unfold store
    dsimp only
    rw [if_neg (Nat.ne_of_lt hdl), hd]
    dsimp only
    rw [if_pos hi]
    rfl
  rw [hst]
  dsimp only
  have hl : (s ++ [Word.byte 0]).length = s.length + 1 := by simp
  rw [← hl]
  rw [copy_ok (rest := rest) (d := List.replicate (s.length + 1) Word.junk) ht0 (by have := hs.1; omega)]
  · refine congrArg some (congrArg (Prod.mk true) (Mem.ext' rfl ?_))
    intro p
    unfold put afterBlock
    dsimp only
    by_cases h1 : p = m.next
    · simp [h1]
    · simp [h1]
  · dsimp only
    rw [if_neg hne, if_neg (Nat.ne_of_lt htl), hc]
    simp
  · dsimp only
    rw [if_neg (by omega), if_pos rfl]
    simp
  · simp

theorem afterBlock_sound {m : Mem} (hs : Sound m) {dst i : Nat} {ws b : List Word} (hd : m.cells dst = some ws) :
    Sound (afterBlock m dst i ws b) := by
  have hdl := lt_next hs hd
  have hd0 := ne_zero hs hd
  refine ⟨by simp [afterBlock], ?_, ?_⟩
  · have := hs.1
    unfold afterBlock
    dsimp only
    rw [if_neg (by omega), if_neg (by omega)]
    exact hs.2.1
  · intro p hp
    have hp' : m.next + 1 ≤ p := hp
    unfold afterBlock
    dsimp only
    rw [if_neg (by omega), if_neg (by omega)]
    exact hs.2.2 p (by omega)

theorem copyStrings_ok (src dst : Nat) : ∀ (n i : Nat) (m : Mem) (ts : List (List Word)) (ws sws : List Word), Sound m →
    m.cells dst = some ws → i + n ≤ ws.length → src ≠ dst → ts.length = n → m.cells src = some sws →
    (∀ (j : Nat) s, ts[j]? = some s → ∃ q, sws[i + j]? = some (Word.ptr q) ∧ Text m q s ∧ q ≠ dst) →
    ∃ m', copyStrings src dst n i m = some (true, m') ∧ m'.next = m.next + n ∧ Sound m' ∧
      (∀ p, p < m.next → p ≠ dst → m'.cells p = m.cells p) ∧
      (∀ (j : Nat) s, ts[j]? = some s → m'.cells (m.next + j) = some (s ++ [Word.byte 0])) ∧
      ∃ ws', m'.cells dst = some ws' ∧ ws'.length = ws.length ∧
        ∀ j, ws'[j]? = if i ≤ j ∧ j < i + n then some (Word.ptr (m.next + (j - i))) else ws[j]?
  | 0, i, m, ts, ws, sws, hs, hd, hl, hne, ht, hsrc, h => by
    refine ⟨m, rfl, rfl, hs, fun _ _ _ => rfl, ?_, ws, hd, rfl, ?_⟩
    · intro j s hj
      rw [List.length_eq_zero_iff.1 ht] at hj
      simp at hj
    · intro j
      rw [if_neg (by omega)]
  | n + 1, i, m, ts, ws, sws, hs, hd, hl, hne, ht, hsrc, h => by
    cases ts with
    | nil => simp at ht
    | cons s ts =>
      obtain ⟨q, hq, htq, hqd⟩ := h 0 s rfl
      have hdl := lt_next hs hd
      have hsl := lt_next hs hsrc
      have hload : loadPtr m src i = some q := by
        unfold loadPtr load
        rw [hsrc]
        simp only [Option.bind_some]
        rw [Nat.add_zero] at hq
        rw [hq]
      have hstep := copyString_ok hs htq hd (show i < ws.length by omega) hqd
      have hs' := afterBlock_sound (i := i) (b := s ++ [.byte 0]) hs hd
      have hcd : (afterBlock m dst i ws (s ++ [.byte 0])).cells dst = some (ws.set i (.ptr m.next)) := by
        unfold afterBlock; dsimp only; rw [if_neg (by omega), if_pos rfl]
      have hcs : (afterBlock m dst i ws (s ++ [.byte 0])).cells src = some sws := by
        unfold afterBlock; dsimp only; rw [if_neg (by omega), if_neg hne, hsrc]
      obtain ⟨m', h1, h2, h3, h4, h5, ws', h6, h7, h8⟩ := copyStrings_ok src dst n (i + 1) (afterBlock m dst i ws (s ++ [.byte 0])) ts
        (ws.set i (.ptr m.next)) sws hs' hcd (by simp; omega) hne (by simpa using ht) hcs (by
          intro j s' hj
          obtain ⟨q', hq', ht', hqd'⟩ := h (j + 1) s' (by simpa using hj)
          refine ⟨q', by rw [← hq']; congr 1; omega, ?_, hqd'⟩
          obtain ⟨hz, rest, hc⟩ := ht'
          refine ⟨hz, rest, ?_⟩
          have := lt_next hs hc
          unfold afterBlock; dsimp only; rw [if_neg (by omega), if_neg hqd', hc])
      have hn : (afterBlock m dst i ws (s ++ [.byte 0])).next = m.next + 1 := rfl
      rw [hn] at h2 h4 h5 h8
      refine ⟨m', ?_, by omega, h3, ?_, ?_, ws', h6, by simpa using h7, ?_⟩
      · unfold copyStrings
        rw [hload]
        dsimp only
        rw [hstep]
        dsimp only
        rw [if_pos rfl]
        exact h1
      · intro p hp hpd
        rw [h4 p (by omega) hpd]
        unfold afterBlock; dsimp only; rw [if_neg (by omega), if_neg hpd]
      · intro j s' hj
        cases j with
        | zero =>
          rw [List.getElem?_cons_zero] at hj
          cases hj
          rw [h4 (m.next + 0) (by omega) (by omega)]
          unfold afterBlock; dsimp only; rw [if_pos (by omega)]
        | succ j =>
          rw [List.getElem?_cons_succ] at hj
          rw [← h5 j s' hj]
          congr 1; omega
      · intro j
        rw [h8 j, List.getElem?_set]
        by_cases hj : j = i
        · subst hj
          rw [if_neg (by omega), if_pos rfl, if_pos (by omega), if_pos (by omega)]
          simp
        · by_cases hj2 : i + 1 ≤ j ∧ j < i + 1 + n
          · rw [if_pos hj2, if_pos (by omega)]
            congr 2; omega
          · rw [if_neg hj2, if_neg (by omega), if_neg (by omega)]

theorem freeStrings_ok (d : Nat) : ∀ (n i : Nat) (m : Mem) (ws : List Word) (q : Nat), m.cells d = some ws → d < q →
    (∀ j, j < n → ws[i + j]? = some (Word.ptr (q + j)) ∧ (m.cells (q + j)).isSome = true) →
    ∃ m', freeStrings d n i m = some m' ∧ m'.next = m.next ∧
      ∀ p, m'.cells p = if q ≤ p ∧ p < q + n then none else m.cells p
  | 0, i, m, ws, q, hd, hq, h => ⟨m, rfl, rfl, fun p => by rw [if_neg (by omega)]⟩
  | n + 1, i, m, ws, q, hd, hq, h => by
    have h0 := h 0 (by omega)
    simp only [Nat.add_zero] at h0
    have hload : load m d i = some (.ptr q) := by
      unfold load; rw [hd]; exact h0.1
    have hfree : free m (.ptr q) = some { m with cells := fun p => if p = q then none else m.cells p } := by
      unfold free
      dsimp only
      rw [if_neg (by omega), if_pos h0.2]
    obtain ⟨m', h1, h2, h3⟩ := freeStrings_ok d n (i + 1) { m with cells := fun p => if p = q then none else m.cells p } ws (q + 1)
      (by dsimp only; rw [if_neg (by omega), hd]) (by omega) (by
        intro j hj
        have := h (j + 1) (by omega)
        refine ⟨by rw [show i + 1 + j = i + (j + 1) by omega, this.1]; congr 2; omega, ?_⟩
        dsimp only
        rw [if_neg (by omega), show q + 1 + j = q + (j + 1) by omega]
        exact this.2)
    refine ⟨m', ?_, h2, ?_⟩
    · unfold freeStrings
      rw [hload]
      dsimp only
      rw [hfree]
      exact h1
    · intro p
      rw [h3 p]
      dsimp only
      by_cases hp : p = q
      · rw [if_neg (by omega), if_pos hp, if_pos (by omega)]
      · by_cases hp2 : q + 1 ≤ p ∧ p < q + 1 + n
        · rw [if_pos hp2, if_pos (by omega)]
        · rw [if_neg hp2, if_neg hp, if_neg (by omega)]

theorem copyRows_ok {α : Type} (t : Any) (d w : Nat) (S R : Mem → Nat → α → Prop)
    (hS : ∀ m m' r x, S m r x → (∀ p, p < m.next → p ≠ d → m'.cells p = m.cells p) → Sound m → S m' r x)
    (hR : ∀ m m' p x, R m p x → (∀ u, p ≤ u → u < p + w → m'.cells u = m.cells u) → R m' p x)
    (step : ∀ m ws r x, Sound m → m.cells d = some ws → r < ws.length → S m r x →
      ∃ m', copyRow t d r m = some (true, m') ∧ m'.next = m.next + w ∧ Sound m' ∧
        (∀ p, p < m.next → p ≠ d → m'.cells p = m.cells p) ∧ m'.cells d = some (ws.set r (.ptr m.next)) ∧ R m' m.next x) :
    ∀ (n r : Nat) (m : Mem) (xs : List α) (ws : List Word), Sound m → m.cells d = some ws → r + n ≤ ws.length → xs.length = n →
      (∀ (j : Nat) x, xs[j]? = some x → S m (r + j) x) →
      ∃ m', copyRows t d n r m = some (true, m') ∧ m'.next = m.next + n * w ∧ Sound m' ∧
        (∀ p, p < m.next → p ≠ d → m'.cells p = m.cells p) ∧
        (∀ (j : Nat) x, xs[j]? = some x → R m' (m.next + j * w) x) ∧
        ∃ ws', m'.cells d = some ws' ∧ ws'.length = ws.length ∧
          ∀ j, ws'[j]? = if r ≤ j ∧ j < r + n then some (Word.ptr (m.next + (j - r) * w)) else ws[j]?
  | 0, r, m, xs, ws, hs, hd, hl, hx, h => by
    refine ⟨m, rfl, by omega, hs, fun _ _ _ => rfl, ?_, ws, hd, rfl, ?_⟩
    · intro j s hj
      rw [List.length_eq_zero_iff.1 hx] at hj
      simp at hj
    · intro j
      rw [if_neg (by omega)]
  | n + 1, r, m, xs, ws, hs, hd, hl, hx, h => by
    cases xs with
    | nil => simp at hx
    | cons x xs =>
      have hdl := lt_next hs hd
      obtain ⟨m1, g1, g2, g3, g4, g5, g6⟩ := step m ws r x hs hd (by omega) (by simpa using h 0 x rfl)
      obtain ⟨m', h1, h2, h3, h4, h5, ws', h6, h7, h8⟩ := copyRows_ok t d w S R hS hR step n (r + 1) m1 xs (ws.set r (.ptr m.next)) g3 g5
        (by simp; omega) (by simpa using hx) (by
          intro j x' hj
          have := h (j + 1) x' (by simpa using hj)
          rw [show r + 1 + j = r + (j + 1) by omega]
          exact hS m m1 _ x' this g4 hs)
      rw [g2] at h2 h4 h5 h8
      have hm : (n + 1) * w = n * w + w := Nat.succ_mul n w
      refine ⟨m', ?_, by omega, h3, ?_, ?_, ws', h6, by simpa using h7, ?_⟩
      · unfold copyRows
        rw [g1]
        exact h1
      · intro p hp hpd
        rw [h4 p (by omega) hpd, g4 p hp hpd]
      · intro j x' hj
        cases j with
        | zero =>
          rw [List.getElem?_cons_zero] at hj
          cases hj
          rw [Nat.zero_mul, Nat.add_zero]
          exact hR m1 m' m.next x g6 (fun u hu1 hu2 => h4 u (by omega) (by omega))
        | succ j =>
          rw [List.getElem?_cons_succ] at hj
          have := h5 j x' hj
          rw [Nat.succ_mul, show m.next + (j * w + w) = m.next + w + j * w by omega]
          exact this
      · intro j
        rw [h8 j, List.getElem?_set]
        by_cases hj : j = r
        · subst hj
          rw [if_neg (by omega), if_pos rfl, if_pos (by omega), if_pos (by omega)]
          simp
        · by_cases hj2 : r + 1 ≤ j ∧ j < r + 1 + n
          · rw [if_pos hj2, if_pos (by omega)]
            have : j - r = (j - (r + 1)) + 1 := by omega
            rw [this, Nat.succ_mul]
            congr 2; omega
          · rw [if_neg hj2, if_neg (by omega), if_neg (by omega)]

theorem freeRows_ok {α : Type} (a : Any) (w : Nat) (R : Mem → Nat → α → Prop)
    (hR : ∀ m m' p x, R m p x → (∀ u, p ≤ u → u < p + w → m'.cells u = m.cells u) → R m' p x)
    (step : ∀ m ws r p x, m.cells a.data = some ws → ws[r]? = some (Word.ptr p) → a.data < p → R m p x →
      ∃ m', freeRow a r m = some m' ∧ m'.next = m.next ∧ ∀ u, m'.cells u = if p ≤ u ∧ u < p + w then none else m.cells u) :
    ∀ (n r : Nat) (m : Mem) (xs : List α) (ws : List Word) (q : Nat), m.cells a.data = some ws → a.data < q → xs.length = n →
      (∀ (j : Nat) x, xs[j]? = some x → ws[r + j]? = some (Word.ptr (q + j * w)) ∧ R m (q + j * w) x) →
      ∃ m', freeRows a n r m = some m' ∧ m'.next = m.next ∧
        ∀ u, m'.cells u = if q ≤ u ∧ u < q + n * w then none else m.cells u
  | 0, r, m, xs, ws, q, hd, hq, hx, h => ⟨m, rfl, rfl, fun p => by rw [if_neg (by omega)]⟩
  | n + 1, r, m, xs, ws, q, hd, hq, hx, h => by
    cases xs with
    | nil => simp at hx
    | cons x xs =>
      have h0 := h 0 x rfl
      rw [Nat.zero_mul, Nat.add_zero, Nat.add_zero] at h0
      obtain ⟨m1, g1, g2, g3⟩ := step m ws r q x hd h0.1 hq h0.2
      obtain ⟨m', h1, h2, h3⟩ := freeRows_ok a w R hR step n (r + 1) m1 xs ws (q + w)
        (by rw [g3, if_neg (by omega), hd]) (by omega) (by simpa using hx) (by
          intro j x' hj
          have := h (j + 1) x' (by simpa using hj)
          rw [Nat.succ_mul, show q + (j * w + w) = q + w + j * w by omega] at this
          refine ⟨by rw [show r + 1 + j = r + (j + 1) by omega]; exact this.1, hR m m1 _ x' this.2 ?_⟩
          intro u hu1 hu2
          rw [g3, if_neg (by omega)])
      have hm : (n + 1) * w = n * w + w := Nat.succ_mul n w
      refine ⟨m', ?_, by omega, ?_⟩
      · unfold freeRows
        rw [g1]
        exact h1
      · intro u
        rw [h3 u, g3 u]
        by_cases hu : q + w ≤ u ∧ u < q + w + n * w
        · rw [if_pos hu, if_pos (by omega)]
        · by_cases hu2 : q ≤ u ∧ u < q + w
          · rw [if_neg hu, if_pos hu2, if_pos (by omega)]
          · rw [if_neg hu, if_neg hu2, if_neg (by omega)]

/-- The row of a copied matrix of numbers. -/
def RawRow (m : Mem) (p : Nat) (b : List Word) : Prop := m.cells p = some b

/-- The row of a copied matrix of texts: the table of addresses, and the blocks of the texts after it. -/
def TextRow (m : Mem) (p : Nat) (ts : List (List Word)) : Prop :=
  ∃ ws, m.cells p = some ws ∧ ∀ (j : Nat) s, ts[j]? = some s →
    ws[j]? = some (Word.ptr (p + 1 + j)) ∧ Word.byte 0 ∉ s ∧ m.cells (p + 1 + j) = some (s ++ [.byte 0])

theorem RawRow.stable (m m' : Mem) (p : Nat) (b : List Word) (h : RawRow m p b)
    (e : ∀ u, p ≤ u → u < p + 1 → m'.cells u = m.cells u) : RawRow m' p b := by
  unfold RawRow at h ⊢
  rw [e p (by omega) (by omega), h]

theorem TextRow.stable (n : Nat) (m m' : Mem) (p : Nat) (ts : List (List Word)) (h : TextRow m p ts ∧ ts.length = n)
    (e : ∀ u, p ≤ u → u < p + (n + 1) → m'.cells u = m.cells u) : TextRow m' p ts ∧ ts.length = n := by
  obtain ⟨⟨ws, h1, h2⟩, hl⟩ := h
  refine ⟨⟨ws, by rw [e p (by omega) (by omega), h1], fun j s hj => ?_⟩, hl⟩
  have hjl : j < ts.length := by
    rcases Nat.lt_or_ge j ts.length with h3 | h3
    · exact h3
    · rw [List.getElem?_eq_none h3] at hj; cases hj
  obtain ⟨a, b, c⟩ := h2 j s hj
  exact ⟨a, b, by rw [e _ (by omega) (by omega), c]⟩

theorem TextRow.texts {m : Mem} {p : Nat} {ts : List (List Word)} (h : TextRow m p ts) : Texts m p ts := by
  obtain ⟨ws, h1, h2⟩ := h
  refine ⟨ws, h1, fun i s hi => ?_⟩
  obtain ⟨a, b, c⟩ := h2 i s hi
  exact ⟨_, a, b, [], c⟩

/-- The source of a row of numbers. -/
def RawSrc (t : Any) (d n : Nat) (m : Mem) (r : Nat) (b : List Word) : Prop :=
  t.data ≠ d ∧ b.length = n ∧ ∃ sws q, m.cells t.data = some sws ∧ sws[r]? = some (Word.ptr q) ∧ Begins m q b ∧ q ≠ d

/-- The source of a row of texts. -/
def TextSrc (t : Any) (d n : Nat) (m : Mem) (r : Nat) (ts : List (List Word)) : Prop :=
  t.data ≠ d ∧ ts.length = n ∧ ∃ sws q, m.cells t.data = some sws ∧ sws[r]? = some (Word.ptr q) ∧ q ≠ d ∧
    ∃ ws, m.cells q = some ws ∧ ∀ (j : Nat) s, ts[j]? = some s → ∃ u, ws[j]? = some (Word.ptr u) ∧ Text m u s ∧ u ≠ d

theorem RawSrc.stable (t : Any) (d n : Nat) (m m' : Mem) (r : Nat) (b : List Word) (h : RawSrc t d n m r b)
    (e : ∀ p, p < m.next → p ≠ d → m'.cells p = m.cells p) (hs : Sound m) : RawSrc t d n m' r b := by
  obtain ⟨h1, h2, sws, q, h3, h4, ⟨rest, h5⟩, h6⟩ := h
  exact ⟨h1, h2, sws, q, by rw [e _ (lt_next hs h3) h1, h3], h4, ⟨rest, by rw [e _ (lt_next hs h5) h6, h5]⟩, h6⟩

theorem TextSrc.stable (t : Any) (d n : Nat) (m m' : Mem) (r : Nat) (ts : List (List Word)) (h : TextSrc t d n m r ts)
    (e : ∀ p, p < m.next → p ≠ d → m'.cells p = m.cells p) (hs : Sound m) : TextSrc t d n m' r ts := by
  obtain ⟨h1, h2, sws, q, h3, h4, h5, ws, h6, h7⟩ := h
  refine ⟨h1, h2, sws, q, by rw [e _ (lt_next hs h3) h1, h3], h4, h5, ws, by rw [e _ (lt_next hs h6) h5, h6], ?_⟩
  intro j s hj
  obtain ⟨u, g1, ⟨g2, rest, g3⟩, g4⟩ := h7 j s hj
  exact ⟨u, g1, ⟨g2, rest, by rw [e _ (lt_next hs g3) g4, g3]⟩, g4⟩

/-- `malloc` and then keeping the address of the block. -/
theorem store_malloc {m : Mem} (hs : Sound m) {n d r : Nat} (hn : 0 < n) {ws : List Word} (hd : m.cells d = some ws) (hr : r < ws.length) :
    store (malloc m n).2 d r (.ptr (malloc m n).1) = some (afterBlock m d r ws (List.replicate n .junk)) ∧ (malloc m n).1 = m.next := by
  have hdl := lt_next hs hd
  rw [malloc_pos m hn]
  refine ⟨?_, rfl⟩
  unfold store
  dsimp only
  rw [if_neg (Nat.ne_of_lt hdl), hd]
  dsimp only
  rw [if_pos hr]
  refine congrArg some (Mem.ext' rfl ?_)
  intro p
  unfold put afterBlock
  dsimp only
  by_cases h1 : p = m.next
  · rw [if_neg (by omega), if_pos h1, if_pos h1]
  · by_cases h2 : p = d
    · rw [if_pos h2, if_neg h1, if_pos h2]
    · rw [if_neg h2, if_neg h1, if_neg h1, if_neg h2]

theorem copyRow_raw (t : Any) (d : Nat) (ht : isText t.kind = false) (hz : 0 < size t.kind t.cols) (m : Mem) (ws : List Word) (r : Nat)
    (b : List Word) (hs : Sound m) (hd : m.cells d = some ws) (hr : r < ws.length) (h : RawSrc t d (size t.kind t.cols) m r b) :
    ∃ m', copyRow t d r m = some (true, m') ∧ m'.next = m.next + 1 ∧ Sound m' ∧
      (∀ p, p < m.next → p ≠ d → m'.cells p = m.cells p) ∧ m'.cells d = some (ws.set r (.ptr m.next)) ∧ RawRow m' m.next b := by
  obtain ⟨h1, h2, sws, q, h3, h4, ⟨rest, h5⟩, h6⟩ := h
  have hdl := lt_next hs hd
  have htl := lt_next hs h3
  have hql := lt_next hs h5
  obtain ⟨e1, e2⟩ := store_malloc hs (r := r) hz hd hr
  refine ⟨afterBlock m d r ws b, ?_, rfl, afterBlock_sound hs hd, ?_, ?_, ?_⟩
  · unfold copyRow
    rw [e1, e2]
    dsimp only
    have hload : loadPtr (afterBlock m d r ws (List.replicate (size t.kind t.cols) .junk)) t.data r = some q := by
      unfold loadPtr load afterBlock
      dsimp only
      rw [if_neg (by omega), if_neg h1, h3]
      simp only [Option.bind_some, h4]
    rw [hload]
    dsimp only
    rw [ht, if_neg (by simp)]
    have hc := copy_ok (m := afterBlock m d r ws (List.replicate (size t.kind t.cols) .junk)) (dst := m.next) (src := q) (b := b)
      (rest := rest) (d := List.replicate (size t.kind t.cols) .junk) (ne_zero hs h5) (by have := hs.1; omega)
      (by unfold afterBlock; dsimp only; rw [if_neg (by omega), if_neg h6, h5]) (by unfold afterBlock; dsimp only; rw [if_pos rfl])
      (by simp [h2])
    rw [h2] at hc
    rw [hc]
    refine congrArg some (congrArg (Prod.mk true) (Mem.ext' rfl ?_))
    intro p
    unfold put afterBlock
    dsimp only
    by_cases hp : p = m.next
    · rw [if_pos hp, if_pos hp]
    · rw [if_neg hp, if_neg hp, if_neg hp]
  · intro p hp hpd
    unfold afterBlock; dsimp only; rw [if_neg (by omega), if_neg hpd]
  · unfold afterBlock; dsimp only; rw [if_neg (by omega), if_pos rfl]
  · unfold RawRow afterBlock; dsimp only; rw [if_pos rfl]

theorem copyRow_text (t : Any) (d : Nat) (ht : isText t.kind = true) (hz : size t.kind t.cols = t.cols) (hp : 0 < t.cols) (m : Mem)
    (ws : List Word) (r : Nat) (ts : List (List Word)) (hs : Sound m) (hd : m.cells d = some ws) (hr : r < ws.length)
    (h : TextSrc t d t.cols m r ts) :
    ∃ m', copyRow t d r m = some (true, m') ∧ m'.next = m.next + (t.cols + 1) ∧ Sound m' ∧
      (∀ p, p < m.next → p ≠ d → m'.cells p = m.cells p) ∧ m'.cells d = some (ws.set r (.ptr m.next)) ∧
      (TextRow m' m.next ts ∧ ts.length = t.cols) := by
  obtain ⟨h1, h2, sws, q, h3, h4, h5, qs, h6, h7⟩ := h
  have hdl := lt_next hs hd
  have htl := lt_next hs h3
  have hql := lt_next hs h6
  obtain ⟨e1, e2⟩ := store_malloc hs (r := r) hp hd hr
  have hs2 : Sound (afterBlock m d r ws (List.replicate t.cols .junk)) := afterBlock_sound hs hd
  obtain ⟨m', g1, g2, g3, g4, g5, ws', g6, g7, g8⟩ := copyStrings_ok q m.next t.cols 0 (afterBlock m d r ws (List.replicate t.cols .junk)) ts
    (List.replicate t.cols .junk) qs hs2 (by unfold afterBlock; dsimp only; rw [if_pos rfl]) (by simp) (by omega) h2
    (by unfold afterBlock; dsimp only; rw [if_neg (by omega), if_neg h5, h6]) (by
      intro j s hj
      obtain ⟨u, k1, ⟨k2, rest, k3⟩, k4⟩ := h7 j s hj
      have := lt_next hs k3
      exact ⟨u, by rw [Nat.zero_add]; exact k1, ⟨k2, rest, by unfold afterBlock; dsimp only; rw [if_neg (by omega), if_neg k4, k3]⟩, by omega⟩)
  have hn : (afterBlock m d r ws (List.replicate t.cols .junk)).next = m.next + 1 := rfl
  rw [hn] at g2 g4 g5 g8
  refine ⟨m', ?_, by omega, g3, ?_, ?_, ⟨ws', g6, ?_⟩, h2⟩
  · unfold copyRow
    rw [hz, e1, e2]
    dsimp only
    have hload : loadPtr (afterBlock m d r ws (List.replicate t.cols .junk)) t.data r = some q := by
      unfold loadPtr load afterBlock
      dsimp only
      rw [if_neg (by omega), if_neg h1, h3]
      simp only [Option.bind_some, h4]
    rw [hload]
    dsimp only
    rw [ht, if_pos rfl]
    exact g1
  · intro p hp hpd
    rw [g4 p (by omega) (by omega)]
    unfold afterBlock; dsimp only; rw [if_neg (by omega), if_neg hpd]
  · rw [g4 d (by omega) (by omega)]
    unfold afterBlock; dsimp only; rw [if_neg (by omega), if_pos rfl]
  · intro j s hj
    have hjl : j < ts.length := by
      rcases Nat.lt_or_ge j ts.length with h3 | h3
      · exact h3
      · rw [List.getElem?_eq_none h3] at hj; cases hj
    obtain ⟨u, k1, ⟨k2, _⟩, _⟩ := h7 j s hj
    refine ⟨?_, k2, g5 j s hj⟩
    rw [g8 j, if_pos (by omega)]
    simp

theorem freeRow_raw (a : Any) (ht : isText a.kind = false) (m : Mem) (ws : List Word) (r p : Nat) (b : List Word)
    (hd : m.cells a.data = some ws) (hw : ws[r]? = some (Word.ptr p)) (hp : a.data < p) (h : RawRow m p b) :
    ∃ m', freeRow a r m = some m' ∧ m'.next = m.next ∧ ∀ u, m'.cells u = if p ≤ u ∧ u < p + 1 then none else m.cells u := by
  refine ⟨{ m with cells := fun q => if q = p then none else m.cells q }, ?_, rfl, ?_⟩
  · have hload : load m a.data r = some (.ptr p) := by unfold load; rw [hd]; exact hw
    unfold freeRow
    rw [ht, if_neg (by simp)]
    dsimp only
    rw [hload]
    unfold free
    dsimp only
    unfold RawRow at h
    rw [if_neg (by omega), h]
    rfl
  · intro u
    dsimp only
    by_cases hu : u = p
    · rw [if_pos hu, if_pos (by omega)]
    · rw [if_neg hu, if_neg (by omega)]

theorem freeRow_text (a : Any) (ht : isText a.kind = true) (m : Mem) (ws : List Word) (r p : Nat) (ts : List (List Word))
    (hd : m.cells a.data = some ws) (hw : ws[r]? = some (Word.ptr p)) (hp : a.data < p) (h : TextRow m p ts ∧ ts.length = a.cols) :
    ∃ m', freeRow a r m = some m' ∧ m'.next = m.next ∧ ∀ u, m'.cells u = if p ≤ u ∧ u < p + (a.cols + 1) then none else m.cells u := by
  obtain ⟨⟨qs, h1, h2⟩, hl⟩ := h
  obtain ⟨m1, g1, g2, g3⟩ := freeStrings_ok p a.cols 0 m qs (p + 1) h1 (by omega) (by
    intro j hj
    obtain ⟨s, hs⟩ : ∃ s, ts[j]? = some s := ⟨ts[j]'(by omega), List.getElem?_eq_getElem (by omega)⟩
    obtain ⟨k1, k2, k3⟩ := h2 j s hs
    refine ⟨by rw [Nat.zero_add]; exact k1, by rw [k3]; rfl⟩)
  have hload : load m a.data r = some (.ptr p) := by unfold load; rw [hd]; exact hw
  have hload1 : load m1 a.data r = some (.ptr p) := by unfold load; rw [g3, if_neg (by omega), hd]; exact hw
  have hlp : loadPtr m a.data r = some p := by unfold loadPtr; rw [hload]
  refine ⟨{ m1 with cells := fun q => if q = p then none else m1.cells q }, ?_, g2, ?_⟩
  · unfold freeRow
    rw [ht, if_pos rfl, hlp]
    dsimp only
    rw [if_pos (by omega), g1]
    dsimp only
    rw [hload1]
    unfold free
    dsimp only
    have h1' : m1.cells p = some qs := by rw [g3, if_neg (by omega), h1]
    rw [if_neg (by omega), h1']
    rfl
  · intro u
    dsimp only
    by_cases hu : u = p
    · rw [if_pos hu, if_pos (by omega)]
    · rw [if_neg hu, g3]
      by_cases hu2 : p + 1 ≤ u ∧ u < p + 1 + a.cols
      · rw [if_pos hu2, if_pos (by omega)]
      · rw [if_neg hu2, if_neg (by omega)]

/-- The contents `c` of the value `a` are in the blocks from `lo` to `hi`, which belong to it alone. -/
inductive Owned (m : Mem) (a : Any) : Content → Nat → Nat → Prop
  | address (lo) : a.kind = .pointer → a.dims = 0 → Owned m a (.address a.data) lo lo
  | block (c) (b : List Word) : isText a.kind = false → (a.dims = 2 → a.isStatic = true) → ¬ (a.dims = 0 ∧ a.kind = .pointer) →
      a.data ≠ 0 → m.cells a.data = some b → (∀ m' : Mem, m'.cells a.data = some b → Holds m' a c) → Owned m a c a.data (a.data + 1)
  | text (s) : a.kind = .cstr → a.dims = 0 → a.data ≠ 0 → Word.byte 0 ∉ s → m.cells a.data = some (s ++ [.byte 0]) →
      Owned m a (.text [[s]]) a.data (a.data + 1)
  | table (c n ts) : a.kind = .cstr → (a.dims = 1 ∧ n = a.cols) ∨ (a.dims = 2 ∧ a.isStatic = true ∧ n = a.rows * a.cols) → a.data ≠ 0 →
      TextRow m a.data ts → ts.length = n → (∀ m' : Mem, Texts m' a.data ts → Holds m' a c) → Owned m a c a.data (a.data + (n + 1))
  | rawRows (w bs ws) : Width a.kind w → a.dims = 2 → a.isStatic = false → a.data ≠ 0 → bs.length = a.rows →
      (∀ b ∈ bs, b.length = w * a.cols) → m.cells a.data = some ws →
      (∀ (i : Nat) b, bs[i]? = some b → ws[i]? = some (Word.ptr (a.data + 1 + i * 1)) ∧ RawRow m (a.data + 1 + i * 1) b) →
      Owned m a (.raw bs) a.data (a.data + 1 + a.rows * 1)
  | textRows (tss ws) : a.kind = .cstr → a.dims = 2 → a.isStatic = false → a.data ≠ 0 → tss.length = a.rows →
      m.cells a.data = some ws →
      (∀ (i : Nat) ts, tss[i]? = some ts → ws[i]? = some (Word.ptr (a.data + 1 + i * (a.cols + 1))) ∧
        (TextRow m (a.data + 1 + i * (a.cols + 1)) ts ∧ ts.length = a.cols)) →
      Owned m a (.text tss) a.data (a.data + 1 + a.rows * (a.cols + 1))

theorem width_not_text {k : Kind} {w : Nat} (h : Width k w) : isText k = false := by
  rcases h with h | ⟨h, _⟩ <;> rw [h] <;> rfl

theorem lt_of_getElem? {α : Type} {l : List α} {i : Nat} {x : α} (h : l[i]? = some x) : i < l.length := by
  rcases Nat.lt_or_ge i l.length with h3 | h3
  · exact h3
  · rw [List.getElem?_eq_none h3] at h; cases h

theorem Owned.stable {m m' : Mem} {a : Any} {c : Content} {lo hi : Nat} (h : Owned m a c lo hi)
    (e : ∀ p, lo ≤ p → p < hi → m'.cells p = m.cells p) : Owned m' a c lo hi := by
  cases h with
  | address _ h1 h2 => exact .address _ h1 h2
  | block _ b h1 h2 h3 h4 h5 h6 => exact .block _ b h1 h2 h3 h4 (by rw [e _ (by omega) (by omega), h5]) h6
  | text s h1 h2 h3 h4 h5 => exact .text s h1 h2 h3 h4 (by rw [e _ (by omega) (by omega), h5])
  | table _ n ts h1 h2 h3 h4 h5 h6 =>
    exact .table _ n ts h1 h2 h3 (TextRow.stable n m m' _ ts ⟨h4, h5⟩ e).1 h5 h6
  | rawRows w bs ws h1 h2 h3 h4 h5 h6 h7 h8 =>
    refine .rawRows w bs ws h1 h2 h3 h4 h5 h6 (by rw [e _ (by omega) (by omega), h7]) ?_
    intro i b hi
    have := lt_of_getElem? hi
    exact ⟨(h8 i b hi).1, RawRow.stable m m' _ b (h8 i b hi).2 (fun u hu1 hu2 => e u (by omega) (by omega))⟩
  | textRows tss ws h1 h2 h3 h4 h5 h6 h7 =>
    refine .textRows tss ws h1 h2 h3 h4 h5 (by rw [e _ (by omega) (by omega), h6]) ?_
    intro i ts hi
    have hlt := lt_of_getElem? hi
    have hm : (i + 1) * (a.cols + 1) ≤ a.rows * (a.cols + 1) := Nat.mul_le_mul_right _ (by omega)
    rw [Nat.succ_mul] at hm
    exact ⟨(h7 i ts hi).1, TextRow.stable a.cols m m' _ ts (h7 i ts hi).2 (fun u hu1 hu2 => e u (by omega) (by omega))⟩

theorem Owned.holds {m : Mem} {a : Any} {c : Content} {lo hi : Nat} (h : Owned m a c lo hi) : Holds m a c := by
  cases h with
  | address _ h1 h2 => exact .address h1 h2
  | block _ b h1 h2 h3 h4 h5 h6 => exact h6 m h5
  | text s h1 h2 h3 h4 h5 => exact .cString s h1 h2 ⟨h4, [], h5⟩
  | table _ n ts h1 h2 h3 h4 h5 h6 => exact h6 m h4.texts
  | rawRows w bs ws h1 h2 h3 h4 h5 h6 h7 h8 =>
    refine .heapMatrix w bs ws h1 h2 h3 h5 h6 h7 ?_
    intro i b hi
    exact ⟨_, (h8 i b hi).1, [], by rw [List.append_nil]; exact (h8 i b hi).2⟩
  | textRows tss ws h1 h2 h3 h4 h5 h6 h7 =>
    refine .textHeapMatrix tss ws (.inl h1) h2 h3 h5 ?_ h6 ?_
    · intro ts hts
      obtain ⟨i, hi⟩ := List.getElem?_of_mem hts
      exact (h7 i ts hi).2.2
    · intro i ts hi
      exact ⟨_, (h7 i ts hi).1, (h7 i ts hi).2.1.texts⟩

theorem free_self {m : Mem} {p : Nat} {b : List Word} (h0 : p ≠ 0) (h : m.cells p = some b) :
    free m (.ptr p) = some { m with cells := fun q => if q = p then none else m.cells q } := by
  unfold free
  dsimp only
  rw [if_neg h0, h]
  rfl

theorem Owned.clean {m : Mem} {a : Any} {c : Content} {lo hi : Nat} (h : Owned m a c lo hi) (hk : a.kind = .pointer → a.dims = 0) :
    ∃ a' m', cleanUp m a = some (a', m') ∧ a'.data = 0 ∧ m'.next = m.next ∧
      ∀ p, m'.cells p = if lo ≤ p ∧ p < hi then none else m.cells p := by
  -- the last block
  have last : ∀ (m1 : Mem) (b : List Word) (n : Nat), a.data ≠ 0 → a.kind ≠ .pointer → freeInside m a = some m1 → m1.next = m.next →
      m.cells a.data = some b →
      (∀ p, m1.cells p = if a.data + 1 ≤ p ∧ p < a.data + 1 + n then none else m.cells p) →
      ∃ a' m', cleanUp m a = some (a', m') ∧ a'.data = 0 ∧ m'.next = m.next ∧
        ∀ p, m'.cells p = if a.data ≤ p ∧ p < a.data + 1 + n then none else m.cells p := by
    intro m1 b n h0 hp h1 h2 h3 h4
    refine ⟨void, { m1 with cells := fun q => if q = a.data then none else m1.cells q }, ?_, rfl, h2, ?_⟩
    · unfold cleanUp
      rw [if_neg h0, h1]
      dsimp only
      rw [if_neg hp, free_self h0 (b := b) (by rw [h4, if_neg (by omega), h3])]
    · intro p
      dsimp only
      by_cases h5 : p = a.data
      · rw [if_pos h5, if_pos (by omega)]
      · rw [if_neg h5, h4]
        by_cases h6 : a.data + 1 ≤ p ∧ p < a.data + 1 + n
        · rw [if_pos h6, if_pos (by omega)]
        · rw [if_neg h6, if_neg (by omega)]
  cases h with
  | address _ h1 h2 =>
    by_cases h0 : a.data = 0
    · refine ⟨a, m, by unfold cleanUp; rw [if_pos h0], h0, rfl, fun p => by rw [if_neg (by omega)]⟩
    · refine ⟨void, m, ?_, rfl, rfl, fun p => by rw [if_neg (by omega)]⟩
      unfold cleanUp freeInside
      rw [if_neg h0, if_neg (by omega), if_neg (by omega)]
      dsimp only
      rw [if_pos h1]
  | block _ b h1 h2 h3 h4 h5 h6 =>
    refine last m b 0 h4 (fun e => h3 ⟨hk e, e⟩) ?_ rfl h5 (fun p => by rw [if_neg (by omega)])
    unfold freeInside
    by_cases hd1 : a.dims = 1
    · rw [if_pos hd1, h1, if_neg (by simp)]
    · by_cases hd2 : a.dims = 2
      · rw [if_neg hd1, if_pos hd2, if_pos (h2 hd2), h1, if_neg (by simp)]
      · rw [if_neg hd1, if_neg hd2]
  | text s h1 h2 h3 h4 h5 =>
    refine last m _ 0 h3 (by rw [h1]; simp) ?_ rfl h5 (fun p => by rw [if_neg (by omega)])
    unfold freeInside
    rw [if_neg (by omega), if_neg (by omega)]
  | table _ n ts h1 h2 h3 h4 h5 h6 =>
    obtain ⟨ws, g1, g2⟩ := h4
    obtain ⟨m1, k1, k2, k3⟩ := freeStrings_ok a.data n 0 m ws (a.data + 1) g1 (by omega) (by
      intro j hj
      obtain ⟨s, hs⟩ : ∃ s, ts[j]? = some s := ⟨ts[j]'(by omega), List.getElem?_eq_getElem (by omega)⟩
      obtain ⟨e1, e2, e3⟩ := g2 j s hs
      exact ⟨by rw [Nat.zero_add]; exact e1, by rw [e3]; rfl⟩)
    have hh := last m1 ws n h3 (by rw [h1]; simp) (by
      unfold freeInside
      have ht : isText a.kind = true := by rw [h1]; rfl
      rcases h2 with ⟨hd, hn⟩ | ⟨hd, hst, hn⟩
      · rw [if_pos hd, ht, if_pos rfl, ← hn]; exact k1
      · rw [if_neg (by omega), if_pos hd, if_pos hst, ht, if_pos rfl, ← hn]; exact k1) k2 g1 k3
    rw [show a.data + 1 + n = a.data + (n + 1) by omega] at hh
    exact hh
  | rawRows w bs ws h1 h2 h3 h4 h5 h6 h7 h8 =>
    obtain ⟨m1, k1, k2, k3⟩ := freeRows_ok a 1 RawRow RawRow.stable (freeRow_raw a (width_not_text h1)) a.rows 0 m bs ws (a.data + 1) h7
      (by omega) h5 (by
        intro j b hj
        rw [Nat.zero_add]
        exact h8 j b hj)
    refine last m1 ws (a.rows * 1) h4 (fun e => by have := hk e; omega) ?_ k2 h7 k3
    unfold freeInside
    rw [if_neg (by omega), if_pos h2, h3, if_neg (by simp)]
    exact k1
  | textRows tss ws h1 h2 h3 h4 h5 h6 h7 =>
    have ht : isText a.kind = true := by rw [h1]; rfl
    obtain ⟨m1, k1, k2, k3⟩ := freeRows_ok a (a.cols + 1) (fun m p ts => TextRow m p ts ∧ ts.length = a.cols) (TextRow.stable a.cols)
      (freeRow_text a ht) a.rows 0 m tss ws (a.data + 1) h6
      (by omega) h5 (by
        intro j b hj
        rw [Nat.zero_add]
        exact h7 j b hj)
    refine last m1 ws (a.rows * (a.cols + 1)) h4 (by rw [h1]; simp) ?_ k2 h6 k3
    unfold freeInside
    rw [if_neg (by omega), if_pos h2, h3, if_neg (by simp)]
    exact k1

/-- The memory after a new block with the cells `b`. -/
def withBlock (m : Mem) (b : List Word) : Mem := Mem.mk (m.next + 1) (fun p => if p = m.next then some b else m.cells p)

theorem withBlock_sound {m : Mem} (hs : Sound m) (b : List Word) : Sound (withBlock m b) := by
  have := hs.1
  refine ⟨by simp [withBlock], ?_, ?_⟩
  · unfold withBlock; dsimp only; rw [if_neg (by omega)]; exact hs.2.1
  · intro p hp
    have hp' : m.next + 1 ≤ p := hp
    unfold withBlock; dsimp only; rw [if_neg (by omega)]; exact hs.2.2 p (by omega)

theorem copyAll_ok {m : Mem} (hs : Sound m) {t : Any} {b : List Word} (h : Begins m t.data b) (hn : 0 < b.length) :
    copyAll m t b.length = some (true, { t with data := m.next }, withBlock m b) := by
  obtain ⟨rest, h⟩ := h
  have hl := lt_next hs h
  unfold copyAll
  rw [malloc_pos m hn]
  dsimp only
  rw [copy_ok (rest := rest) (d := List.replicate b.length .junk) (ne_zero hs h) (by have := hs.1; omega)
    (by dsimp only; rw [if_neg (by omega), h]) (by dsimp only; rw [if_pos rfl]) (by simp)]
  dsimp only
  refine congrArg some (congrArg (Prod.mk true) (congrArg (Prod.mk _) (Mem.ext' rfl ?_)))
  intro p
  unfold put withBlock
  dsimp only
  by_cases hp : p = m.next
  · rw [if_pos hp, if_pos hp]
  · rw [if_neg hp, if_neg hp, if_neg hp]

theorem copyTable_ok {m : Mem} (hs : Sound m) {t : Any} {ts : List (List Word)} {n : Nat} (h : Texts m t.data ts) (hl : ts.length = n)
    (hn : 0 < n) (hz : size t.kind n = n) :
    ∃ m', copyTable m t n = some (true, { t with data := m.next }, m') ∧ m'.next = m.next + (n + 1) ∧ Sound m' ∧
      (∀ p, p < m.next → m'.cells p = m.cells p) ∧ TextRow m' m.next ts := by
  obtain ⟨sws, h1, h2⟩ := h
  have htl := lt_next hs h1
  obtain ⟨m', g1, g2, g3, g4, g5, ws', g6, g7, g8⟩ := copyStrings_ok t.data m.next n 0 (withBlock m (List.replicate n .junk)) ts
    (List.replicate n .junk) sws (withBlock_sound hs _) (by unfold withBlock; dsimp only; rw [if_pos rfl]) (by simp) (by omega) hl
    (by unfold withBlock; dsimp only; rw [if_neg (by omega), h1]) (by
      intro j s hj
      obtain ⟨q, k1, k2, rest, k3⟩ := h2 j s hj
      have := lt_next hs k3
      exact ⟨q, by rw [Nat.zero_add]; exact k1, ⟨k2, rest, by unfold withBlock; dsimp only; rw [if_neg (by omega), k3]⟩, by omega⟩)
  have hnx : (withBlock m (List.replicate n Word.junk)).next = m.next + 1 := rfl
  rw [hnx] at g2 g4 g5 g8
  refine ⟨m', ?_, by omega, g3, ?_, ws', g6, ?_⟩
  · unfold copyTable
    rw [hz, malloc_pos m hn]
    dsimp only
    have g1' : copyStrings t.data m.next n 0 (Mem.mk (m.next + 1) fun q => if q = m.next then some (List.replicate n Word.junk) else m.cells q) =
      some (true, m') := g1
    rw [g1']
  · intro p hp
    rw [g4 p (by omega) (by omega)]
    unfold withBlock; dsimp only; rw [if_neg (by omega)]
  · intro j s hj
    have hjl := lt_of_getElem? hj
    obtain ⟨q, k1, k2, rest, k3⟩ := h2 j s hj
    refine ⟨?_, k2, g5 j s hj⟩
    rw [g8 j, if_pos (by omega)]
    simp

theorem flat_length {α : Type} (n : Nat) : ∀ (l : List (List α)), (∀ x ∈ l, x.length = n) → l.flatten.length = l.length * n
  | [], _ => by simp
  | x :: l, h => by
    rw [List.flatten_cons, List.length_append, flat_length n l (fun y hy => h y (List.mem_cons_of_mem _ hy)), h x List.mem_cons_self,
      List.length_cons, Nat.succ_mul]
    omega

theorem size_width {k : Kind} {w n N : Nat} (h : Width k w) (hn : n ≤ N) (hn0 : 0 < n)
    (hf : Small k N) : size k n = w * n ∧ 0 < w * n := by
  rcases h with h | ⟨h, hw⟩
  · subst h
    unfold Small at hf; dsimp only at hf
    have : w * n ≤ w * N := Nat.mul_le_mul_left _ hn
    refine ⟨?_, Nat.mul_pos hf.1 hn0⟩
    unfold size
    dsimp only
    exact Nat.mod_eq_of_lt (by omega)
  · subst h
    subst hw
    unfold Small at hf; dsimp only at hf
    refine ⟨?_, by omega⟩
    unfold size
    dsimp only
    rw [Nat.mod_eq_of_lt (by omega)]
    omega

theorem size_text {k : Kind} {n N : Nat} (h : k = .cstr ∨ k = .sstr) (hn : n ≤ N)
    (hf : Small k N) : size k n = n := by
  rcases h with h | h <;> subst h <;> unfold Small at hf <;> dsimp only at hf <;> unfold size <;> dsimp only <;> exact Nat.mod_eq_of_lt (by omega)

theorem retype_raw {t : Any} (h : isText t.kind = false) (d : Nat) : retype t { t with data := d } = { t with data := d } := by
  unfold retype
  rw [if_neg (by intro e; rw [e] at h; cases h)]

theorem retype_text {t : Any} (h : t.kind = .cstr ∨ t.kind = .sstr) (d : Nat) :
    retype t { t with data := d } = { t with data := d, kind := .cstr } := by
  unfold retype
  rcases h with h | h
  · rw [if_neg (by rw [h]; simp)]
    cases t; simp only at h; subst h; rfl
  · rw [if_pos h]

theorem shape_raw {t : Any} (h : isText t.kind = false) (d : Nat) : SameShape { t with data := d } t := by
  refine ⟨rfl, rfl, rfl, rfl, rfl, ?_⟩
  rw [if_neg (by intro e; rw [e] at h; cases h)]

theorem shape_text {t : Any} (h : t.kind = .cstr ∨ t.kind = .sstr) (d : Nat) : SameShape { t with data := d, kind := .cstr } t := by
  refine ⟨rfl, rfl, rfl, rfl, rfl, ?_⟩
  rcases h with h | h <;> rw [h] <;> simp

theorem isText_of {k : Kind} (h : k = .cstr ∨ k = .sstr) : isText k = true := by
  rcases h with h | h <;> rw [h] <;> rfl

theorem dispatch0 {m : Mem} {a0 t : Any} (h : t.dims = 0) : dispatch m a0 t = scalar m t := by unfold dispatch; rw [h]; rfl
theorem dispatch1 {m : Mem} {a0 t : Any} (h : t.dims = 1) : dispatch m a0 t = vector m t := by unfold dispatch; rw [h]; rfl
theorem dispatch2 {m : Mem} {a0 t : Any} (h : t.dims = 2) :
    dispatch m a0 t = if t.isStatic then staticMatrix m t else heapMatrix m t := by unfold dispatch; rw [h]; rfl
theorem dispatch3 {m : Mem} {a0 t : Any} (h : t.dims = 3) :
    dispatch m a0 t = if t.isStatic then staticTensor m t else some (false, a0, m) := by unfold dispatch; rw [h]; rfl
theorem scalar_of {m : Mem} {t : Any} {k : Kind} : t.kind = k → scalar m t =
    match k with
    | .sstr => (loadPtr m t.data 0).bind fun token => copyText m t token
    | .cstr => copyText m t t.data
    | .pointer => some (true, t, m)
    | .num k => copyAll m t k := by intro h; unfold scalar; rw [h]; cases k <;> rfl

/-- The result of `dispatch`. -/
def Done (m : Mem) (a0 t : Any) (c : Content) : Prop :=
  ∃ a1 m', dispatch m a0 t = some (true, a1, m') ∧ m.next ≤ m'.next ∧ Sound m' ∧ (∀ p, p < m.next → m'.cells p = m.cells p) ∧
    SameShape (retype t a1) t ∧ Owned m' (retype t a1) c m.next m'.next

theorem done_block {m : Mem} (hs : Sound m) (a0 : Any) {t : Any} {c : Content} {b : List Word} (hk : isText t.kind = false)
    (hst : t.dims = 2 → t.isStatic = true) (hp : ¬ (t.dims = 0 ∧ t.kind = .pointer)) (hn : 0 < b.length) (hb : Begins m t.data b)
    (hd : dispatch m a0 t = copyAll m t b.length)
    (hh : ∀ m' : Mem, Begins m' m.next b → Holds m' { t with data := m.next } c) : Done m a0 t c := by
  refine ⟨{ t with data := m.next }, withBlock m b, hd.trans (copyAll_ok hs hb hn), by simp [withBlock], withBlock_sound hs b, ?_, ?_, ?_⟩
  · intro p hp
    unfold withBlock; dsimp only; rw [if_neg (by omega)]
  · rw [retype_raw hk]; exact shape_raw hk _
  · rw [retype_raw hk]
    refine .block c b hk hst hp (by have := hs.1; simp only; omega) (by unfold withBlock; dsimp only; rw [if_pos rfl]) ?_
    intro m' hm'
    exact hh m' ⟨[], by rw [List.append_nil]; exact hm'⟩

theorem done_table {m : Mem} (hs : Sound m) (a0 : Any) {t : Any} {c : Content} {ts : List (List Word)} {n : Nat}
    (hk : t.kind = .cstr ∨ t.kind = .sstr) (hn : 0 < n) (hl : ts.length = n) (hz : size t.kind n = n)
    (hdim : (t.dims = 1 ∧ n = t.cols) ∨ (t.dims = 2 ∧ t.isStatic = true ∧ n = t.rows * t.cols)) (ht : Texts m t.data ts)
    (hd : dispatch m a0 t = copyTable m t n)
    (hh : ∀ m' : Mem, Texts m' m.next ts → Holds m' { t with data := m.next, kind := .cstr } c) : Done m a0 t c := by
  obtain ⟨m', g1, g2, g3, g4, g5⟩ := copyTable_ok hs ht hl hn hz
  refine ⟨{ t with data := m.next }, m', hd.trans g1, by omega, g3, g4, ?_, ?_⟩
  · rw [retype_text hk]; exact shape_text hk _
  · rw [retype_text hk, g2]
    exact .table c n ts rfl hdim (by have := hs.1; simp only; omega) g5 hl hh

theorem done_text {m : Mem} (hs : Sound m) (a0 : Any) {t : Any} {s : List Word} {token : Nat} (hk : t.kind = .cstr ∨ t.kind = .sstr)
    (hd0 : t.dims = 0) (ht : Text m token s) (hd : dispatch m a0 t = copyText m t token) : Done m a0 t (.text [[s]]) := by
  obtain ⟨hz, rest, hc⟩ := ht
  have hlen : strLength m token = some s.length := by
    unfold strLength
    rw [if_neg (ne_zero hs hc), hc]
    exact zeroAt_text s hz rest
  have hcopy := copyAll_ok hs (t := { t with data := token }) (b := s ++ [.byte 0]) ⟨rest, by simpa using hc⟩ (by simp)
  rw [List.length_append, List.length_singleton] at hcopy
  refine ⟨{ t with data := m.next }, withBlock m (s ++ [.byte 0]), hd.trans ?_, by simp [withBlock], withBlock_sound hs _, ?_, ?_, ?_⟩
  · unfold copyText
    rw [hlen]
    exact hcopy
  · intro p hp
    unfold withBlock; dsimp only; rw [if_neg (by omega)]
  · rw [retype_text hk]; exact shape_text hk _
  · rw [retype_text hk]
    exact .text s rfl hd0 (by have := hs.1; simp only; omega) hz (by unfold withBlock; dsimp only; rw [if_pos rfl])

theorem dispatch_ok {m : Mem} (hs : Sound m) (a0 : Any) {t : Any} {c : Content} (h : Holds m t c) (hf : Fits t) : Done m a0 t c := by
  obtain ⟨hc0, hrows, hf⟩ := hf
  cases h with
  | address h1 h2 =>
    refine ⟨t, m, ?_, Nat.le_refl _, hs, fun _ _ => rfl, ?_, ?_⟩
    · rw [dispatch0 h2, scalar_of h1]
    · have : retype t t = t := by unfold retype; rw [if_neg (by rw [h1]; simp)]
      rw [this]
      exact ⟨rfl, rfl, rfl, rfl, rfl, by rw [if_neg (by rw [h1]; simp)]⟩
    · have : retype t t = t := by unfold retype; rw [if_neg (by rw [h1]; simp)]
      rw [this]
      exact .address _ h1 h2
  | number b h1 h2 h3 =>
    have hk : isText t.kind = false := by rw [h1]; rfl
    refine done_block hs a0 hk (by omega) (by rw [h1]; simp) ?_ h3 ?_ ?_
    · rw [h1] at hf; exact (show 0 < b.length ∧ _ from hf).1
    · rw [dispatch0 h2, scalar_of h1]
    · intro m' hm'
      exact .number b h1 h2 hm'
  | vector w b h1 h2 h3 h4 =>
    have hk := width_not_text h1
    have hc : count t = t.cols := by unfold count; rw [h2]; rfl
    rw [hc] at hc0 hf
    have hz := size_width h1 (Nat.le_refl _) hc0 hf
    refine done_block hs a0 hk (by omega) (by omega) (by omega) h4 ?_ ?_
    · rw [dispatch1 h2]; unfold vector; rw [hk, if_neg (by simp), hz.1, h3]
    · intro m' hm'
      exact .vector w b h1 h2 h3 hm'
  | staticMatrix w bs h1 h2 h3 h4 h5 h6 =>
    have hk := width_not_text h1
    have hc : count t = t.rows * t.cols := by unfold count; rw [h2]; rfl
    rw [hc] at hc0 hf
    have hz := size_width h1 (Nat.le_refl _) hc0 hf
    have hfl : bs.flatten.length = w * (t.rows * t.cols) := by
      rw [flat_length _ bs h5, h4, Nat.mul_left_comm]
    refine done_block hs a0 hk (fun _ => h3) (by omega) (by omega) h6 ?_ ?_
    · rw [dispatch2 h2, if_pos h3]; unfold staticMatrix; rw [hk, if_neg (by simp), hz.1, hfl]
    · intro m' hm'
      exact .staticMatrix w bs h1 h2 h3 h4 h5 hm'
  | tensor w bs h1 h2 h3 h4 h5 h6 =>
    have hk := width_not_text h1
    have hc : count t = t.rows * t.cols * t.pages := by unfold count; rw [h2]; rfl
    rw [hc] at hc0 hf
    have hz := size_width h1 (Nat.le_refl _) hc0 hf
    have hfl : bs.flatten.length = w * (t.rows * t.cols * t.pages) := by
      rw [flat_length _ bs h5, h4, Nat.mul_left_comm, Nat.mul_right_comm]
    refine done_block hs a0 hk (by omega) (by omega) (by omega) h6 ?_ ?_
    · rw [dispatch3 h2, if_pos h3]; unfold staticTensor; dsimp only; rw [hk, if_neg (by simp), hz.1, hfl]
    · intro m' hm'
      exact .tensor w bs h1 h2 h3 h4 h5 hm'
  | cString s h1 h2 h3 =>
    refine done_text hs a0 (.inl h1) h2 h3 ?_
    rw [dispatch0 h2, scalar_of h1]
  | streamString s h1 h2 h3 =>
    obtain ⟨ws, g1, g2⟩ := h3
    obtain ⟨q, k1, k2⟩ := g2 0 s rfl
    refine done_text hs a0 (.inr h1) h2 k2 ?_
    have hload : loadPtr m t.data 0 = some q := by unfold loadPtr load; rw [g1, Option.bind_some, k1]
    rw [dispatch0 h2, scalar_of h1]; dsimp only; rw [hload]; rfl
  | textVector ts h1 h2 h3 h4 =>
    have hc : count t = t.cols := by unfold count; rw [h2]; rfl
    rw [hc] at hc0 hf
    refine done_table hs a0 h1 hc0 h3 (size_text h1 (Nat.le_refl _) hf) (.inl ⟨h2, rfl⟩) h4 ?_ ?_
    · rw [dispatch1 h2]; unfold vector; rw [isText_of h1, if_pos rfl]
    · intro m' hm'
      exact .textVector ts (.inl rfl) h2 h3 hm'
  | textStaticMatrix tss h1 h2 h3 h4 h5 h6 =>
    have hc : count t = t.rows * t.cols := by unfold count; rw [h2]; rfl
    rw [hc] at hc0 hf
    have hfl : tss.flatten.length = t.rows * t.cols := by rw [flat_length _ tss h5, h4]
    refine done_table hs a0 h1 hc0 hfl (size_text h1 (Nat.le_refl _) hf) (.inr ⟨h2, h3, rfl⟩) h6 ?_ ?_
    · rw [dispatch2 h2, if_pos h3]; unfold staticMatrix; rw [isText_of h1, if_pos rfl]
    · intro m' hm'
      exact .textStaticMatrix tss (.inl rfl) h2 h3 h4 h5 hm'
  | heapMatrix w bs ws h1 h2 h3 h4 h5 h6 h7 =>
    have hk := width_not_text h1
    have hc : count t = t.rows * t.cols := by unfold count; rw [h2]; rfl
    rw [hc] at hc0 hf
    have hr0 : 0 < t.rows := Nat.pos_of_ne_zero (by intro e; rw [e, Nat.zero_mul] at hc0; omega)
    have hco0 : 0 < t.cols := Nat.pos_of_ne_zero (by intro e; rw [e, Nat.mul_zero] at hc0; omega)
    have hle : t.cols ≤ t.rows * t.cols := Nat.le_mul_of_pos_left _ hr0
    have hz := size_width h1 hle hco0 hf
    have hr8 : 8 * t.rows < 4294967296 := hrows h2 h3
    have hzr : size .pointer t.rows = t.rows := by unfold size; dsimp only; exact Nat.mod_eq_of_lt (by omega)
    have htl := lt_next hs h6
    obtain ⟨m', g1, g2, g3, g4, g5, ws', g6, g7, g8⟩ := copyRows_ok t m.next 1 (RawSrc t m.next (size t.kind t.cols)) RawRow
      (RawSrc.stable t m.next _) RawRow.stable (copyRow_raw t m.next hk (by omega)) t.rows 0
      (withBlock m (List.replicate t.rows .junk)) bs (List.replicate t.rows .junk) (withBlock_sound hs _)
      (by unfold withBlock; dsimp only; rw [if_pos rfl]) (by simp) h4 (by
        intro j b hj
        obtain ⟨q, k1, rest, k2⟩ := h7 j b hj
        have := lt_next hs k2
        refine ⟨by omega, by rw [hz.1]; exact h5 b (List.mem_of_getElem? hj), ws, q, ?_, by rw [Nat.zero_add]; exact k1, ⟨rest, ?_⟩, by omega⟩
        · unfold withBlock; dsimp only; rw [if_neg (by omega), h6]
        · unfold withBlock; dsimp only; rw [if_neg (by omega), k2])
    have hnx : (withBlock m (List.replicate t.rows Word.junk)).next = m.next + 1 := rfl
    rw [hnx] at g2 g4 g5 g8
    refine ⟨{ t with data := m.next }, m', ?_, by omega, g3, ?_, ?_, ?_⟩
    · rw [dispatch2 h2, if_neg (by rw [h3]; simp)]
      unfold heapMatrix
      rw [hzr, malloc_pos m hr0]
      dsimp only
      have g1' : copyRows t m.next t.rows 0 (Mem.mk (m.next + 1) fun q => if q = m.next then some (List.replicate t.rows Word.junk) else
        m.cells q) = some (true, m') := g1
      rw [g1']
    · intro p hp
      rw [g4 p (by omega) (by omega)]
      unfold withBlock; dsimp only; rw [if_neg (by omega)]
    · rw [retype_raw hk]; exact shape_raw hk _
    · rw [retype_raw hk, g2]
      refine .rawRows w bs ws' h1 h2 h3 (by have := hs.1; simp only; omega) h4 h5 g6 ?_
      intro i b hi
      have := lt_of_getElem? hi
      refine ⟨?_, g5 i b hi⟩
      rw [g8 i, if_pos (by omega), Nat.sub_zero]
  | textHeapMatrix tss ws h1 h2 h3 h4 h5 h6 h7 =>
    have hk := isText_of h1
    have hc : count t = t.rows * t.cols := by unfold count; rw [h2]; rfl
    rw [hc] at hc0 hf
    have hr0 : 0 < t.rows := Nat.pos_of_ne_zero (by intro e; rw [e, Nat.zero_mul] at hc0; omega)
    have hco0 : 0 < t.cols := Nat.pos_of_ne_zero (by intro e; rw [e, Nat.mul_zero] at hc0; omega)
    have hle : t.cols ≤ t.rows * t.cols := Nat.le_mul_of_pos_left _ hr0
    have hz := size_text h1 hle hf
    have hr8 : 8 * t.rows < 4294967296 := hrows h2 h3
    have hzr : size .pointer t.rows = t.rows := by unfold size; dsimp only; exact Nat.mod_eq_of_lt (by omega)
    have htl := lt_next hs h6
    obtain ⟨m', g1, g2, g3, g4, g5, ws', g6, g7, g8⟩ := copyRows_ok t m.next (t.cols + 1) (TextSrc t m.next t.cols)
      (fun m p ts => TextRow m p ts ∧ ts.length = t.cols)
      (TextSrc.stable t m.next _) (TextRow.stable t.cols) (copyRow_text t m.next hk hz hco0) t.rows 0
      (withBlock m (List.replicate t.rows .junk)) tss (List.replicate t.rows .junk) (withBlock_sound hs _)
      (by unfold withBlock; dsimp only; rw [if_pos rfl]) (by simp) h4 (by
        intro j ts hj
        obtain ⟨q, k1, qs, k2, k3⟩ := h7 j ts hj
        have := lt_next hs k2
        refine ⟨by omega, h5 ts (List.mem_of_getElem? hj), ws, q, ?_, by rw [Nat.zero_add]; exact k1, by omega, qs, ?_, ?_⟩
        · unfold withBlock; dsimp only; rw [if_neg (by omega), h6]
        · unfold withBlock; dsimp only; rw [if_neg (by omega), k2]
        · intro i s hi
          obtain ⟨u, e1, e2, rest, e3⟩ := k3 i s hi
          have := lt_next hs e3
          exact ⟨u, e1, ⟨e2, rest, by unfold withBlock; dsimp only; rw [if_neg (by omega), e3]⟩, by omega⟩)
    have hnx : (withBlock m (List.replicate t.rows Word.junk)).next = m.next + 1 := rfl
    rw [hnx] at g2 g4 g5 g8
    refine ⟨{ t with data := m.next }, m', ?_, by omega, g3, ?_, ?_, ?_⟩
    · rw [dispatch2 h2, if_neg (by rw [h3]; simp)]
      unfold heapMatrix
      rw [hzr, malloc_pos m hr0]
      dsimp only
      have g1' : copyRows t m.next t.rows 0 (Mem.mk (m.next + 1) fun q => if q = m.next then some (List.replicate t.rows Word.junk) else
        m.cells q) = some (true, m') := g1
      rw [g1']
    · intro p hp
      rw [g4 p (by omega) (by omega)]
      unfold withBlock; dsimp only; rw [if_neg (by omega)]
    · rw [retype_text h1]; exact shape_text h1 _
    · rw [retype_text h1, g2]
      refine .textRows tss ws' rfl h2 h3 (by have := hs.1; simp only; omega) h4 g6 ?_
      intro i ts hi
      have := lt_of_getElem? hi
      refine ⟨?_, g5 i ts hi⟩
      rw [g8 i, if_pos (by omega), Nat.sub_zero]

end Verif.AnyObject
