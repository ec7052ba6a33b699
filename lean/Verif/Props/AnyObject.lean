import Verif.Proof.AnyObject
/-!
# C118: a value that is kept is a copy of its own, and it is freed
-/
set_option linter.unusedSimpArgs false
set_option maxRecDepth 8000
namespace Verif.AnyObject
open Spec

private theorem clean_void (m : Mem) : cleanUp m void = some (void, m) := by
  unfold cleanUp
  exact if_pos rfl

private theorem kind_of_shape {a t : Any} (h : SameShape a t) (hp : t.kind = .pointer → t.dims = 0) : a.kind = .pointer → a.dims = 0 := by
  intro e
  rw [h.1]
  apply hp
  have := h.2.2.2.2.2
  rw [e] at this
  split at this
  · cases this
  · exact this.symm

/-- **C118.** Keeping a value (of the kinds and sizes that `Holds` and `Fits` describe) succeeds.  The object then has the same
contents and the same shape, nothing else in memory changes, and whatever is later done to the memory that existed before, the object
keeps those contents. -/
theorem c118_copy_partial (m : Mem) (t : Any) (c : Content) (hs : Sound m) (h : Holds m t c) (hf : Fits t) :
    ∃ a m', serialise m void t = some (true, a, m') ∧ SameShape a t ∧ Sound m' ∧ Agree (fun p => p < m.next) m m' ∧
      ∀ m'', Agree (fun p => m.next ≤ p) m' m'' → Holds m'' a c := by
  obtain ⟨a1, m', h1, h2, h3, h4, h5, h6⟩ := dispatch_ok hs void h hf
  refine ⟨retype t a1, m', ?_, h5, h3, h4, ?_⟩
  · unfold serialise
    rw [clean_void]
    dsimp only
    rw [h1]
  · intro m'' hm
    exact (h6.stable (fun p hp _ => hm p hp)).holds

/-- **C118.** When the value is dropped, exactly the blocks that were taken for it are given back, once each, whatever happened to the
rest of the memory in between.  (Arrays of addresses are not covered: see `c118_pointers_fails`.) -/
theorem c118_clean_partial (m : Mem) (t : Any) (c : Content) (hs : Sound m) (h : Holds m t c) (hf : Fits t)
    (hp : t.kind = .pointer → t.dims = 0) :
    ∃ a m', serialise m void t = some (true, a, m') ∧ m.next ≤ m'.next ∧
      ∀ m'', Agree (fun p => m.next ≤ p ∧ p < m'.next) m' m'' →
        ∃ a2 m2, cleanUp m'' a = some (a2, m2) ∧ a2.data = 0 ∧
          ∀ p, m2.cells p = if m.next ≤ p ∧ p < m'.next then none else m''.cells p := by
  obtain ⟨a1, m', h1, h2, h3, h4, h5, h6⟩ := dispatch_ok hs void h hf
  refine ⟨retype t a1, m', ?_, h2, ?_⟩
  · unfold serialise
    rw [clean_void]
    dsimp only
    rw [h1]
  · intro m'' hm
    obtain ⟨a2, m2, g1, g2, g3, g4⟩ := (h6.stable (m' := m'') (fun p hp1 hp2 => hm p ⟨hp1, hp2⟩)).clean (kind_of_shape h5 hp)
    exact ⟨a2, m2, g1, g2, g4⟩

private theorem holds_mono {m m' : Mem} {t : Any} {c : Content} (h : Holds m t c) (e : ∀ p b, m.cells p = some b → m'.cells p = some b) :
    Holds m' t c := by
  have hb : ∀ {p b}, Begins m p b → Begins m' p b := fun ⟨r, hr⟩ => ⟨r, e _ _ hr⟩
  have ht : ∀ {p s}, Text m p s → Text m' p s := fun ⟨h1, r, hr⟩ => ⟨h1, r, e _ _ hr⟩
  have hts : ∀ {p ts}, Texts m p ts → Texts m' p ts := fun ⟨ws, h1, h2⟩ =>
    ⟨ws, e _ _ h1, fun i s hi => let ⟨q, a, b⟩ := h2 i s hi; ⟨q, a, ht b⟩⟩
  cases h with
  | address h1 h2 => exact .address h1 h2
  | number b h1 h2 h3 => exact .number b h1 h2 (hb h3)
  | vector w b h1 h2 h3 h4 => exact .vector w b h1 h2 h3 (hb h4)
  | staticMatrix w bs h1 h2 h3 h4 h5 h6 => exact .staticMatrix w bs h1 h2 h3 h4 h5 (hb h6)
  | tensor w bs h1 h2 h3 h4 h5 h6 => exact .tensor w bs h1 h2 h3 h4 h5 (hb h6)
  | cString s h1 h2 h3 => exact .cString s h1 h2 (ht h3)
  | streamString s h1 h2 h3 => exact .streamString s h1 h2 (hts h3)
  | textVector ts h1 h2 h3 h4 => exact .textVector ts h1 h2 h3 (hts h4)
  | textStaticMatrix tss h1 h2 h3 h4 h5 h6 => exact .textStaticMatrix tss h1 h2 h3 h4 h5 (hts h6)
  | heapMatrix w bs ws h1 h2 h3 h4 h5 h6 h7 =>
    exact .heapMatrix w bs ws h1 h2 h3 h4 h5 (e _ _ h6) (fun i b hi => let ⟨q, x, y⟩ := h7 i b hi; ⟨q, x, hb y⟩)
  | textHeapMatrix tss ws h1 h2 h3 h4 h5 h6 h7 =>
    exact .textHeapMatrix tss ws h1 h2 h3 h4 h5 (e _ _ h6) (fun i b hi => let ⟨q, x, y⟩ := h7 i b hi; ⟨q, x, hts y⟩)

/-- One more value in the same object. -/
private theorem step (m : Mem) (mk : Mem) (a0 : Any) (m0 : Mem) (b : Any) (hc : cleanUp mk b = some (a0, m0)) (hs : Sound m0)
    (he : ∀ p, m0.cells p = m.cells p) (t : Any) (c : Content) (h : Holds m t c) (hf : Fits t) (hp : t.kind = .pointer → t.dims = 0) :
    ∃ a m', serialise mk b t = some (true, a, m') ∧ SameShape a t ∧ Holds m' a c ∧ (∀ p d, m.cells p = some d → m'.cells p = some d) ∧
      ∃ a2 m2, cleanUp m' a = some (a2, m2) ∧ a2.data = 0 ∧ Sound m2 ∧ ∀ p, m2.cells p = m.cells p := by
  have h0 : Holds m0 t c := holds_mono h (fun p d hd => by rw [he, hd])
  obtain ⟨a1, m', h1, h2, h3, h4, h5, h6⟩ := dispatch_ok hs a0 h0 hf
  obtain ⟨a2, m2, g1, g2, g3, g4⟩ := h6.clean (kind_of_shape h5 hp)
  have key : ∀ p, m2.cells p = m.cells p := by
    intro p
    rw [g4]
    by_cases hp1 : m0.next ≤ p
    · rw [← he, hs.2.2 p hp1]
      by_cases hp2 : p < m'.next
      · rw [if_pos ⟨hp1, hp2⟩]
      · rw [if_neg (by omega), h3.2.2 p (by omega)]
    · rw [if_neg (by omega), h4 p (by omega), he]
  refine ⟨retype t a1, m', ?_, h5, h6.holds, ?_, a2, m2, g1, g2, ?_, key⟩
  · unfold serialise
    rw [hc]
    dsimp only
    rw [h1]
  · intro p d hd
    rw [← he] at hd
    rw [h4 p (lt_next hs hd), hd]
  · refine ⟨by rw [g3]; exact h3.1, by rw [key, ← he]; exact hs.2.1, ?_⟩
    intro p hp
    rw [g3] at hp
    rw [key, ← he]
    exact hs.2.2 p (by omega)

/-- **C118.** An object that keeps values one after the other holds the last one; the memory that existed before is unchanged, and
dropping the object gives back everything that was ever taken. -/
theorem c118_history_partial (m : Mem) (ts : List (Any × Content)) (t : Any) (c : Content) (hs : Sound m)
    (h : ∀ x ∈ ts ++ [(t, c)], Holds m x.1 x.2 ∧ Fits x.1 ∧ (x.1.kind = .pointer → x.1.dims = 0)) :
    ∃ a m', serialiseAll ((ts ++ [(t, c)]).map (·.1)) m void = some (a, m') ∧ SameShape a t ∧ Holds m' a c ∧
      (∀ p b, m.cells p = some b → m'.cells p = some b) ∧
      ∃ a2 m2, cleanUp m' a = some (a2, m2) ∧ a2.data = 0 ∧ ∀ p, m2.cells p = m.cells p := by
  have gen : ∀ (ts : List (Any × Content)) (mk : Mem) (b a0 : Any) (m0 : Mem), cleanUp mk b = some (a0, m0) → Sound m0 →
      (∀ p, m0.cells p = m.cells p) →
      (∀ x ∈ ts ++ [(t, c)], Holds m x.1 x.2 ∧ Fits x.1 ∧ (x.1.kind = .pointer → x.1.dims = 0)) →
      ∃ a m', serialiseAll ((ts ++ [(t, c)]).map (·.1)) mk b = some (a, m') ∧ SameShape a t ∧ Holds m' a c ∧
        (∀ p b, m.cells p = some b → m'.cells p = some b) ∧
        ∃ a2 m2, cleanUp m' a = some (a2, m2) ∧ a2.data = 0 ∧ ∀ p, m2.cells p = m.cells p := by
    intro ts
    induction ts with
    | nil =>
      intro mk b a0 m0 hc hs0 he hx
      obtain ⟨x1, x2, x3⟩ := hx (t, c) (by simp)
      obtain ⟨a, m', g1, g2, g3, g4, a2, m2, g5, g6, g7, g8⟩ := step m mk a0 m0 b hc hs0 he t c x1 x2 x3
      refine ⟨a, m', ?_, g2, g3, g4, a2, m2, g5, g6, g8⟩
      show serialiseAll [t] mk b = _
      unfold serialiseAll
      rw [g1]
      rfl
    | cons x ts ih =>
      intro mk b a0 m0 hc hs0 he hx
      obtain ⟨x1, x2, x3⟩ := hx x (by simp)
      obtain ⟨a, m', g1, g2, g3, g4, a2, m2, g5, g6, g7, g8⟩ := step m mk a0 m0 b hc hs0 he x.1 x.2 x1 x2 x3
      obtain ⟨a', m'', k1, k2⟩ := ih m' a a2 m2 g5 g7 g8 (fun y hy => hx y (by simp at hy ⊢; exact .inr hy))
      refine ⟨a', m'', ?_, k2⟩
      show serialiseAll (x.1 :: (ts ++ [(t, c)]).map (·.1)) mk b = _
      unfold serialiseAll
      rw [g1]
      exact k1
  exact gen ts m void void m (clean_void m) hs (fun _ => rfl) h

/-- Two texts, a table of them, a table with a NULL, a table of addresses, two numbers. -/
private def sample : Mem :=
  { next := 7
    cells := fun p =>
      match p with
      | 1 => some [.byte 97, .byte 0]
      | 2 => some [.byte 98, .byte 99, .byte 0]
      | 3 => some [.ptr 1, .ptr 2]
      | 4 => some [.ptr 0, .ptr 2]
      | 5 => some [.ptr 3, .ptr 3]
      | 6 => some [.byte 1, .byte 2, .byte 3, .byte 4]
      | _ => none }

private theorem sample_sound : Sound sample := by
  refine ⟨by decide, rfl, ?_⟩
  intro p hp
  have hp' : 7 ≤ p := hp
  unfold sample
  dsimp only
  split <;> first | omega | rfl

/-- A matrix of texts on the heap, two rows of two `StreamString`, meets the hypotheses. -/
example : let t : Any := { kind := .sstr, dims := 2, cols := 2, rows := 2, pages := 1, isStatic := false, data := 5 }
    Sound sample ∧ Fits t ∧ (t.kind = .pointer → t.dims = 0) ∧
      Holds sample t (.text [[[.byte 97], [.byte 98, .byte 99]], [[.byte 97], [.byte 98, .byte 99]]]) := by
  have ht : Texts sample 3 [[.byte 97], [.byte 98, .byte 99]] := by
    refine ⟨[.ptr 1, .ptr 2], rfl, fun i s hi => ?_⟩
    match i with
    | 0 => cases hi; exact ⟨1, rfl, by decide, [], rfl⟩
    | 1 => cases hi; exact ⟨2, rfl, by decide, [], rfl⟩
    | _ + 2 => cases hi
  refine ⟨sample_sound, ⟨by decide, fun _ _ => by unfold Small; decide, by unfold Small; decide⟩, (fun h => by cases h), ?_⟩
  refine .textHeapMatrix _ [.ptr 3, .ptr 3] (.inr rfl) rfl rfl rfl (by decide) rfl (fun i ts hi => ?_)
  match i with
  | 0 => cases hi; exact ⟨3, rfl, ht⟩
  | 1 => cases hi; exact ⟨3, rfl, ht⟩
  | _ + 2 => cases hi

/-- **C118 fails for an array of strings with a NULL**: it is refused, and then dropping the object frees an address that was never
written. -/
theorem c118_strings_fails : ∃ (m : Mem) (t a : Any) (m' : Mem), Sound m ∧ t.kind = .cstr ∧ serialise m void t = some (false, a, m') ∧
    (cleanUp m' a).isNone = true :=
  ⟨sample, { kind := .cstr, dims := 1, cols := 2, rows := 1, pages := 1, isStatic := true, data := 4 }, _, _, sample_sound, rfl, rfl,
    by decide⟩

/-- **C118 fails for arrays of addresses**: the block of the copy is never freed. -/
theorem c118_pointers_fails : ∃ (m : Mem) (t a : Any) (m' m2 : Mem), Sound m ∧ t.kind = .pointer ∧ t.dims = 1 ∧
    serialise m void t = some (true, a, m') ∧ cleanUp m' a = some (void, m2) ∧ m.cells m.next = none ∧ (m2.cells m.next).isSome = true :=
  ⟨sample, { kind := .pointer, dims := 1, cols := 2, rows := 1, pages := 1, isStatic := true, data := 3 }, _, _, _, sample_sound, rfl, rfl,
    rfl, rfl, rfl, by decide⟩

/-- **C118 fails when an object is asked to keep its own value**: it is freed before it is read. -/
theorem c118_self_fails : ∃ (m : Mem) (t a : Any) (m' : Mem), Sound m ∧ serialise m void t = some (true, a, m') ∧
    (serialise m' a a).isNone = true :=
  ⟨sample, { kind := .num 4, dims := 0, cols := 1, rows := 1, pages := 1, isStatic := true, data := 6 }, _, _, sample_sound, rfl, by decide⟩

/-- **C118 fails for vectors of 4 GB and more**: only the remainder of the size modulo 2^32 is copied, and it succeeds with the
dimensions of the whole vector. -/
theorem c118_size_fails (m : Mem) (t : Any) (k : Nat) (b : List Word) (hs : Sound m) (hk : t.kind = .num k) (hd : t.dims = 1)
    (hb : Begins m t.data b) (hl : b.length = k * t.cols) (hbig : 4294967296 ≤ k * t.cols) (hr : 0 < k * t.cols % 4294967296) :
    ∃ a m' b', serialise m void t = some (true, a, m') ∧ SameShape a t ∧ m'.cells a.data = some b' ∧ b'.length < k * a.cols := by
  have hz : size t.kind t.cols = k * t.cols % 4294967296 := by rw [hk]; rfl
  have hlt : k * t.cols % 4294967296 < 4294967296 := Nat.mod_lt _ (by omega)
  have hkt : isText t.kind = false := by rw [hk]; rfl
  have hlen : (b.take (k * t.cols % 4294967296)).length = k * t.cols % 4294967296 := by rw [List.length_take]; omega
  have hb' : Begins m t.data (b.take (k * t.cols % 4294967296)) := by
    obtain ⟨rest, h⟩ := hb
    exact ⟨b.drop (k * t.cols % 4294967296) ++ rest, by rw [h, ← List.append_assoc, List.take_append_drop]⟩
  have hc := copyAll_ok hs hb' (by omega)
  rw [hlen] at hc
  refine ⟨{ t with data := m.next }, withBlock m (b.take (k * t.cols % 4294967296)), b.take (k * t.cols % 4294967296), ?_, shape_raw hkt _, ?_, ?_⟩
  · unfold serialise
    rw [clean_void]
    dsimp only
    rw [dispatch1 hd]
    unfold vector
    rw [hkt, if_neg (by simp), hz, hc]
    dsimp only
    rw [retype_raw hkt]
  · unfold withBlock; dsimp only; rw [if_pos rfl]
  · rw [hlen]
    show _ < k * t.cols
    omega

/-- **C118 fails for empty vectors of numbers**: keeping one is an error (an empty vector of strings is kept). -/
theorem c118_empty_fails (m : Mem) (t : Any) (hd : t.dims = 1) (hc : t.cols = 0) :
    (isText t.kind = false → ∃ a, serialise m void t = some (false, a, m)) ∧
    (isText t.kind = true → ∃ a, serialise m void t = some (true, a, m)) := by
  have hz : size t.kind t.cols = 0 := by rw [hc]; cases t.kind <;> rfl
  refine ⟨fun hk => ?_, fun hk => ?_⟩
  · refine ⟨retype t { t with data := 0 }, ?_⟩
    unfold serialise
    rw [clean_void]
    dsimp only
    rw [dispatch1 hd]
    unfold vector
    rw [hk, if_neg (by simp), hz]
    unfold copyAll malloc copy
    simp
  · refine ⟨retype t { t with data := 0 }, ?_⟩
    unfold serialise
    rw [clean_void]
    dsimp only
    rw [dispatch1 hd]
    unfold vector
    rw [hk, if_pos rfl]
    unfold copyTable
    rw [hc] at hz ⊢
    rw [hz]
    unfold malloc copyStrings
    simp

end Verif.AnyObject
