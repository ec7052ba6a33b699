import Verif.Proof.CStrings
/-!
# C76: the functions on texts
-/
namespace Verif.Props.CStrings
open Verif.CStrings Verif.Spec.CStrings

set_option linter.unusedSimpArgs false

/-- **C76** (length). -/
theorem c76_length (p s : List Nat) (h : Holds p s) : length p = some s.length := by
  obtain ⟨hs, r, rfl⟩ := h
  exact length_eq s r hs

/-- **C76** (comparison).  Zero exactly for the same text, of any bytes; for ASCII texts, 1 and 2 are the two orders of the dictionary. -/
theorem c76_compare_partial (p q s t : List Nat) (hp : Holds p s) (hq : Holds q t) :
    (compareAll p q = some 0 ↔ s = t) ∧
    (Ascii s → Ascii t → (compareAll p q = some 1 ↔ Before s t) ∧ (compareAll p q = some 2 ↔ Before t s)) := by
  obtain ⟨hs, r, rfl⟩ := hp
  obtain ⟨ht, u, rfl⟩ := hq
  obtain ⟨n, h1, h2, e⟩ := compare_eq_N s t r u hs ht
  rw [e]
  have e1 : s.take n = s := List.take_of_length_le (by omega)
  have e2 : t.take n = t := List.take_of_length_le (by omega)
  constructor
  · obtain ⟨v, hv, -, hz⟩ := compareN_zero n s t r u hs ht
    rw [hv, ← show s.take n = t.take n ↔ s = t by rw [e1, e2], ← hz]
    simp
  · intro ha hb
    have := compareN_order n s t r u hs ht ha hb
    rwa [e1, e2] at this

/-- **C76** (comparison of the first `n` characters). -/
theorem c76_compare_n_partial (n : Nat) (p q s t : List Nat) (hp : Holds p s) (hq : Holds q t) :
    (compareN n p q = some 0 ↔ s.take n = t.take n) ∧
    (Ascii s → Ascii t → (compareN n p q = some 1 ↔ Before (s.take n) (t.take n)) ∧ (compareN n p q = some 2 ↔ Before (t.take n) (s.take n))) := by
  obtain ⟨hs, r, rfl⟩ := hp
  obtain ⟨ht, u, rfl⟩ := hq
  constructor
  · obtain ⟨v, hv, -, hz⟩ := compareN_zero n s t r u hs ht
    rw [hv, ← hz]; simp
  · exact compareN_order n s t r u hs ht

/-- **C76** (comparison without regard to the case), for all bytes. -/
theorem c76_compare_no_case (n : Nat) (p q s t : List Nat) (hp : Holds p s) (hq : Holds q t) :
    (compareNoCaseN n p q = some 0 ↔ lower (s.take n) = lower (t.take n)) ∧
    (compareNoCaseN n p q = some 1 ↔ Before (lower (s.take n)) (lower (t.take n))) ∧
    (compareNoCaseN n p q = some 2 ↔ Before (lower (t.take n)) (lower (s.take n))) := by
  obtain ⟨hs, r, rfl⟩ := hp
  obtain ⟨ht, u, rfl⟩ := hq
  have hl : ∀ x, lower x = x.map small := fun x => rfl
  have hsm : ∀ c, 0 < c → 0 < small c := fun c h => by unfold small; split <;> omega
  rw [noCase_key, hl, hl]
  refine ⟨?_, cmpKey_order small rfl hsm n s t r u hs ht⟩
  obtain ⟨v, hv, -, hz⟩ := cmpKey_zero (fun c => (small c : Int)) (fun c h1 _ h => by
    have := hsm c h1
    have h0 : small 0 = 0 := rfl
    rw [h0] at h
    omega) n s t r u hs ht
  rw [hv]
  have inj : ∀ (a b : List Nat), a.map (fun c => (small c : Int)) = b.map (fun c => (small c : Int)) ↔ a.map small = b.map small := by
    intro a b
    have e : ∀ x : List Nat, x.map (fun c => (small c : Int)) = (x.map small).map Int.ofNat := fun x => by simp
    rw [e, e]
    exact ⟨fun h => (List.map_inj_right (f := Int.ofNat) (fun x y hxy => Int.ofNat.inj hxy)).mp h, fun h => by rw [h]⟩
  rw [← inj, ← hz]
  simp

/-- **C76** (search of a character).  Its first place, the end for the character zero, null if it is not there. -/
theorem c76_search_char (p s : List Nat) (c : Nat) (hp : Holds p s) :
    (c ≠ 0 → c ∉ s → searchChar c p = some none) ∧ (c = 0 → searchChar c p = some (some s.length)) ∧
    (c ∈ s → ∃ i, searchChar c p = some (some i) ∧ s[i]? = some c ∧ ∀ j, j < i → s[j]? ≠ some c) := by
  obtain ⟨hs, r, rfl⟩ := hp
  rw [searchChar_eq c s r hs]
  refine ⟨fun h1 h2 => by simp [h1, h2], fun h => ?_, fun h => ⟨s.idxOf c, by simp [h], ?_, ?_⟩⟩
  · have : c ∉ s := fun hc => by have := (hs c hc).1; omega
    rw [if_neg this, if_pos h]
  · have hlt := List.idxOf_lt_length_iff.mpr h
    rw [List.getElem?_eq_getElem hlt, List.getElem_idxOf hlt]
  · exact fun j hj => idxOf_first c s j hj

/-- **C76** (search of the last place of a character, not counting the end). -/
theorem c76_search_last_char_partial (p s : List Nat) (c : Nat) (hp : Holds p s) :
    (∃ i, searchLastChar p c = some (some i) ∧ s[i]? = some c ∧ ∀ j, i < j → s[j]? ≠ some c) ∨ (searchLastChar p c = some none ∧ c ∉ s) := by
  obtain ⟨hs, r, rfl⟩ := hp
  unfold searchLastChar
  rw [length_eq s r hs, Option.bind_some]
  have hget : ∀ j, j < s.length → (s ++ 0 :: r)[j]? = s[j]? := fun j hj => List.getElem?_append_left hj
  rcases lastFrom_eq (s ++ 0 :: r) c s.length (by simp) with ⟨i, h1, h2, h3, h4⟩ | ⟨h1, h2⟩
  · refine Or.inl ⟨i, h1, by rw [← hget i h2]; exact h3, fun j hj => ?_⟩
    rcases Nat.lt_or_ge j s.length with e | e
    · rw [← hget j e]; exact h4 j hj e
    · rw [List.getElem?_eq_none e]; simp
  · refine Or.inr ⟨h1, fun hm => ?_⟩
    obtain ⟨i, hi⟩ := List.getElem?_of_mem hm
    have hlt : i < s.length := by
      rcases Nat.lt_or_ge i s.length with e | e
      · exact e
      · rw [List.getElem?_eq_none e] at hi; exact absurd hi (by simp)
    exact h2 i hlt (by rw [hget i hlt]; exact hi)

/-- **C76** (search of one of several characters).  The length of the part before any of them; a pointer there, or null. -/
theorem c76_search_chars (p q s t : List Nat) (hp : Holds p s) (hq : Holds q t) :
    ∃ n, searchIndex p q = some n ∧ n ≤ s.length ∧ (∀ c, c ∈ s.take n → c ∉ t) ∧ (∀ c, s[n]? = some c → c ∈ t) ∧
      searchChars p q = some (if n < s.length then some n else none) := by
  obtain ⟨hs, r, rfl⟩ := hp
  obtain ⟨ht, u, rfl⟩ := hq
  have hle := takeWhile_length_le (fun c => !decide (c ∈ t)) s
  have hpre : s.take (s.takeWhile fun c => !decide (c ∈ t)).length = s.takeWhile fun c => !decide (c ∈ t) :=
    take_takeWhile _ s
  have hnext : ∀ c, s[(s.takeWhile fun c => !decide (c ∈ t)).length]? = some c → c ∈ t := by
    clear hpre hle
    induction s with
    | nil => simp
    | cons a s ih =>
      intro c hc
      rw [List.takeWhile_cons] at hc
      by_cases ha : a ∈ t
      · simp [ha] at hc; rw [← hc]; exact ha
      · simp [ha] at hc; exact ih (fun c hc => hs c (List.mem_cons_of_mem _ hc)) c (by simpa using hc)
  refine ⟨_, searchIndex_eq t u ht s r hs, hle, fun c hc => ?_, hnext, ?_⟩
  · rw [hpre] at hc
    have := List.all_takeWhile (p := fun c => !decide (c ∈ t)) (l := s)
    rw [List.all_eq_true] at this
    simpa using this c hc
  · rw [searchChars_eq t u ht s r hs]
    congr 1
    by_cases hex : ∃ c, c ∈ s ∧ c ∈ t
    · rw [if_pos hex, if_pos]
      rcases Nat.lt_or_ge (s.takeWhile fun c => !decide (c ∈ t)).length s.length with h | h
      · exact h
      · exfalso
        obtain ⟨c, h1, h2⟩ := hex
        have he : s.takeWhile (fun c => !decide (c ∈ t)) = s := by rw [← hpre]; exact List.take_of_length_le h
        have := List.all_takeWhile (p := fun c => !decide (c ∈ t)) (l := s)
        rw [he, List.all_eq_true] at this
        have := this c h1
        simp [h2] at this
    · rw [if_neg hex, if_neg]
      intro h
      have := hnext _ (List.getElem?_eq_getElem h)
      exact hex ⟨_, List.getElem_mem h, this⟩

/-- **C76** (search of a text).  Its first place, or null when it is nowhere. -/
theorem c76_search_string (p q s t : List Nat) (hp : Holds p s) (hq : Holds q t) :
    (∃ i, searchString p q = some (some i) ∧ FirstAt t s i) ∨ (searchString p q = some none ∧ ∀ i, ¬ OccursAt t s i) := by
  obtain ⟨hs, r, rfl⟩ := hp
  obtain ⟨ht, u, rfl⟩ := hq
  unfold searchString
  rw [length_eq s r hs, length_eq t u ht]
  simp only [Option.bind_some]
  by_cases hlt : s.length < t.length
  · rw [show s.length + 1 - t.length = 0 by omega, findFrom]
    exact Or.inr ⟨rfl, fun i ho => by have := ho.1; omega⟩
  · rcases findFrom_eq t u ht s r hs (s.length + 1 - t.length) 0 (by omega) with ⟨j, h1, h2, h3⟩ | ⟨h1, h2⟩
    · rw [List.drop_zero] at h1
      rw [Nat.zero_add] at h2 h3
      exact Or.inl ⟨j, h1, h2, fun l hl => h3 l (by omega) hl⟩
    · rw [List.drop_zero] at h1
      exact Or.inr ⟨h1, fun l => h2 l (by omega)⟩

/-- **C76** (fill).  Exactly the first `n` bytes are set. -/
theorem c76_set_char (c n : Nat) (p : List Nat) (h : n ≤ p.length) : setChar c n p = some (List.replicate n c ++ p.drop n) := by
  rw [setChar_eq, if_pos h]

/-- **C76** (joining and copying, portable).  What the portable functions write: the second text over what follows the first, without an
end.  It is the joined text only when a zero was there already. -/
theorem c76_concatenate_partial (d p s t rest : List Nat) (hd : d = s ++ 0 :: rest) (hs : Holds d s) (hp : Holds p t) (hroom : t.length ≤ rest.length)
    (hzero : (0 :: rest)[t.length]? = some 0) : ∃ d', concatenate d p = some d' ∧ Written d d' (s ++ t) := by
  obtain ⟨hs, -⟩ := hs
  obtain ⟨ht, u, rfl⟩ := hp
  subst hd
  refine ⟨s ++ (t ++ (0 :: rest).drop t.length), ?_, ?_, ?_⟩
  · unfold concatenate
    rw [length_eq s rest hs, Option.bind_some, List.drop_left, List.take_left, blit_eq t u (0 :: rest) ht (by simp; omega)]
    rfl
  · have h1 : (0 :: rest).drop t.length = 0 :: (0 :: rest).drop (t.length + 1) := by
      have hl : t.length < (0 :: rest).length := by simp; omega
      rw [List.drop_eq_getElem_cons hl]
      rw [List.getElem?_eq_getElem hl] at hzero
      simp only [Option.some.injEq] at hzero
      rw [hzero]
    rw [h1, List.append_assoc]
    congr 3
    rw [List.length_append, show s.length + t.length + 1 = s.length + (t.length + 1) by omega]
    simp
  · simp; omega

/-- **C76** fails (portable joining and copying).  The end of the result is not written: copying `"ab"` over `"xyz"` gives `"abz"`, and a
buffer that was not cleared is left without an end. -/
theorem c76_copy_fails : copy [120, 121, 122, 0] [97, 98, 0] = some [97, 98, 122, 0] ∧ copy [7, 7, 7] [97, 98, 0] = some [97, 98, 7] ∧
    strcpy [120, 121, 122, 0] [97, 98, 0] = some [97, 98, 0, 0] := by decide

/-- **C76** fails (portable `CopyN`, `ConcatenateN`).  The rest is not filled with zeros, and one character more than `size` is read. -/
theorem c76_copy_n_fails : copyN [7, 7, 7, 7] [97, 0] 4 = some [97, 7, 7, 7] ∧ copyN [0, 0, 0, 0] [97, 98] 2 = none := by decide

/-- **C76** fails (bytes of 128 and more).  The portable comparison takes them as negative: a text that begins with one is before the empty
text. -/
theorem c76_compare_fails : compareAll [200, 0] [0] = some 1 ∧ Before [] [200] := ⟨by decide, trivial⟩

/-- **C76** fails (last place of the character zero).  The end is not found, that `SearchChar` and `strrchr` find. -/
theorem c76_search_last_char_fails (p s : List Nat) (hp : Holds p s) : searchLastChar p 0 = some none ∧ searchChar 0 p = some (some s.length) := by
  refine ⟨?_, (c76_search_char p s 0 hp).2.1 rfl⟩
  obtain ⟨hs, r, rfl⟩ := hp
  unfold searchLastChar
  rw [length_eq s r hs, Option.bind_some]
  rcases lastFrom_eq (s ++ 0 :: r) 0 s.length (by simp) with ⟨i, h1, h2, h3, h4⟩ | ⟨h1, h2⟩
  · exfalso
    rw [List.getElem?_append_left h2] at h3
    have := (hs 0 (List.mem_of_getElem? h3)).1
    omega
  · exact h1

/-- **C76** (joining two texts in a third place). -/
theorem c76_concatenate3 (d p q s t : List Nat) (hp : Holds p s) (hq : Holds q t) (hroom : s.length + t.length < d.length) :
    ∃ d', concatenate3 d p q = some d' ∧ Written d d' (s ++ t) := by
  obtain ⟨hs, r, rfl⟩ := hp
  obtain ⟨ht, u, rfl⟩ := hq
  exact ⟨_, concatenate3_eq t u ht s r d hs hroom, by rw [List.length_append], by simpa using hroom⟩

/-- **C76** (joining a text and the first `n` characters of another). -/
theorem c76_concatenate_n (n : Nat) (d p q s t : List Nat) (hp : Holds p s) (hq : Holds q t) (hroom : s.length + (t.take n).length < d.length) :
    ∃ d', concatenateN4 n d p q = some d' ∧ Written d d' (s ++ t.take n) := by
  obtain ⟨hs, r, rfl⟩ := hp
  obtain ⟨ht, u, rfl⟩ := hq
  refine ⟨_, concatenateN4_eq n t u ht s r d hs hroom, by rw [List.length_append], by rw [List.length_append]; exact hroom⟩

/-- **C76** (token by characters).  The token is the part before the first of the characters; the result points after it, or to the end of the
text. -/
theorem c76_tokenize_chars (d p q s t : List Nat) (hp : Holds p s) (hq : Holds q t) (hroom : s.length < d.length) :
    ∃ n d', n ≤ s.length ∧ (∀ c, c ∈ s.take n → c ∉ t) ∧ (∀ c, s[n]? = some c → c ∈ t) ∧
      tokenizeByChars p q d = some (if n < s.length then n + 1 else n, d') ∧ Written d d' (s.take n) := by
  obtain ⟨n, h1, h2, h3, h4, h5⟩ := c76_search_chars p q s t hp hq
  obtain ⟨hs, r, rfl⟩ := hp
  obtain ⟨ht, u, rfl⟩ := hq
  rw [searchIndex_eq t u ht s r hs] at h1
  simp only [Option.some.injEq] at h1
  rw [searchChars_eq t u ht s r hs] at h5
  have hpre : s.take n = s.takeWhile fun c => !decide (c ∈ t) := by
    rw [← h1]; exact take_takeWhile _ s
  refine ⟨n, s.take n ++ 0 :: d.drop (n + 1), h2, h3, h4, ?_, ?_⟩
  · rw [tokenizeByChars_eq t u ht s r d hs (by omega), ← hpre, List.length_take, Nat.min_eq_left h2]
    congr 2
    by_cases hex : ∃ c, c ∈ s ∧ c ∈ t
    · rw [if_pos hex] at h5 ⊢
      simp only [Option.some.injEq] at h5
      by_cases hn : n < s.length
      · rw [if_pos hn]
      · rw [if_neg hn] at h5; simp at h5
    · rw [if_neg hex] at h5 ⊢
      by_cases hn : n < s.length
      · rw [if_pos hn] at h5; simp at h5
      · rw [if_neg hn]; rfl
  · exact ⟨by rw [List.length_take, Nat.min_eq_left h2], by rw [List.length_take]; omega⟩

/-- **C76** (token by a text).  The token is the part before the first place of the terminator, and the result points after it; without the
terminator the token is the whole text and the result is null.  With the copy of the C library. -/
theorem c76_tokenize_string (d p q s t : List Nat) (hp : Holds p s) (hq : Holds q t) (hroom : s.length < d.length) :
    (∃ i d', FirstAt t s i ∧ tokenizeByString strcpy p q d = some (some (i + t.length), d') ∧ Written d d' (s.take i)) ∨
    (∃ d', (∀ i, ¬ OccursAt t s i) ∧ tokenizeByString strcpy p q d = some (none, d') ∧ Written d d' s) := by
  obtain ⟨hs, r, rfl⟩ := hp
  obtain ⟨ht, u, rfl⟩ := hq
  unfold tokenizeByString
  rw [length_eq s r hs, length_eq t u ht]
  simp only [Option.bind_some]
  rcases tokenFrom_eq t u ht (s.length + 1 - t.length) s r d hs (by omega) hroom with ⟨i, h1, h2⟩ | ⟨h1, h2⟩
  · have hi : i ≤ s.length := by have := h1.1.1; omega
    exact Or.inl ⟨i, _, h1, h2, by rw [List.length_take, Nat.min_eq_left hi], by rw [List.length_take]; omega⟩
  · exact Or.inr ⟨_, h1, h2, rfl, hroom⟩

/-- **C76** (part of a text).  From `b` to `e`, both included; false when the text ends before `e`. -/
theorem c76_substr_partial (b e : Nat) (d p s : List Nat) (hp : Holds p s) (hb : b ≤ s.length) (hbe : b ≤ e) (he : e < 2 ^ 32 - 1)
    (hroom : e - b + 1 < d.length) :
    ∃ d', substr b e p d = some (decide (e < s.length), d') ∧ Written d d' ((s.drop b).take (e - b + 1)) := by
  obtain ⟨hs, r, rfl⟩ := hp
  unfold substr
  rw [if_neg (by omega), Nat.mod_eq_of_lt (by omega), drop_append_end s r b hb,
    substrLoop_eq _ _ r d (fun c hc => hs c (List.mem_of_mem_drop hc)) (by rw [List.length_take]; omega)]
  refine ⟨_, ?_, rfl, by rw [List.length_take]; omega⟩
  congr 2
  rw [List.length_drop]
  by_cases h : e < s.length
  · simp [h]; omega
  · simp [h]; omega

/-- **C76** fails (part of a text).  A start after the end reads after the end; the largest `end` wraps around, and gives the empty text with
the answer true. -/
theorem c76_substr_fails : substr 3 3 [97, 98, 0] [7, 7] = none ∧ substr 0 (2 ^ 32 - 1) [97, 98, 0] [7, 7, 7] = some (true, [0, 7, 7]) := by decide

/-- **C76** (refused part).  A part that ends before it begins is refused, and nothing is written. -/
theorem c76_substr_refused (b e : Nat) (d p : List Nat) (h : e < b) : substr b e p d = some (false, d) := by
  unfold substr
  rw [if_pos h]

private theorem blitN_room : ∀ (t : List Nat) (n : Nat) (dst u : List Nat), (∀ c, c ∈ t → 0 < c) → dst.length < (t.take n).length →
    blitN n dst (t ++ 0 :: u) = none
  | [], n, dst, u, _, h => by simp at h
  | c :: t, 0, dst, u, _, h => by simp at h
  | c :: t, n + 1, dst, u, ht, h => by
    have hc : c ≠ 0 := by have := ht c (by simp); omega
    cases dst with
    | nil => simp [blitN, hc]
    | cons x dst =>
      simp only [List.cons_append, blitN, hc, ne_eq, not_false_eq_true, true_and, Nat.zero_lt_succ, if_true, Nat.add_sub_cancel]
      rw [blitN_room t n dst u (fun c hc => ht c (by simp [hc])) (by simpa using h)]
      rfl

/-- **C76** (requirements).  What the caller must give: a text without its end is read after its memory, a delimiter without its end too
when it does not contain the character, and a destination without room for the result is written after its memory. -/
theorem c76_outside :
    (∀ p : List Nat, 0 ∉ p → length p = none) ∧
    (∀ (n : Nat) (d p q : List Nat), 0 ∉ p → concatenateN4 n d p q = none ∧ concatenate3 d p q = none) ∧
    (∀ (x y : Nat) (p q d : List Nat), x ≠ 0 → x ∉ q → 0 ∉ q → searchChars (x :: p) q = none ∧ tokenizeByChars (x :: p) q (y :: d) = none) ∧
    (∀ (p : List Nat) (n : Nat), copy [] p = none ∧ copyN [] p n = none) ∧
    (∀ (n : Nat) (d p s t rest : List Nat), d = s ++ 0 :: rest → Holds d s → Holds p t → rest.length + 1 < (t.take n).length →
      concatenateN d p n = none) := by
  have h1 : ∀ p : List Nat, 0 ∉ p → length p = none := by
    intro p
    induction p with
    | nil => intro _; rfl
    | cons c p ih =>
      intro h
      simp only [List.mem_cons, not_or] at h
      rw [length, if_pos (by omega), ih h.2]; rfl
  have h3 : ∀ (x : Nat) (q : List Nat), x ∉ q → 0 ∉ q → hitChars x q = none := by
    intro x q
    induction q with
    | nil => intro _ _; rfl
    | cons y q ih =>
      intro h h'
      simp only [List.mem_cons, not_or] at h h'
      rw [hitChars, if_neg h.1, if_neg (by omega), ih h.2 h'.2]
  refine ⟨h1, ?_, ?_, fun p n => ⟨rfl, rfl⟩, ?_⟩
  · intro n d p q
    induction d generalizing p with
    | nil => intro _; exact ⟨rfl, rfl⟩
    | cons x d ih =>
      intro h
      cases p with
      | nil => exact ⟨rfl, rfl⟩
      | cons c p =>
        simp only [List.mem_cons, not_or] at h
        rw [concatenateN4, if_neg (by omega), (ih p h.2).1, concatenate3, if_neg (by omega), (ih p h.2).2]
        exact ⟨rfl, rfl⟩
  · intro x y p q d hx hq h0
    have := h3 x q hq h0
    constructor
    · rw [searchChars]
      split
      · rfl
      · rw [this]; rfl
    · rw [tokenizeByChars, if_neg hx, this]; rfl
  · intro n d p s t rest hd hs hp hr
    obtain ⟨hs, -⟩ := hs
    obtain ⟨ht, u, rfl⟩ := hp
    subst hd
    unfold concatenateN
    rw [length_eq s rest hs, Option.bind_some, List.drop_left, blitN_room t n _ u (fun c hc => (ht c hc).1) (by simpa using hr)]
    rfl

-- A text of three characters does not fit in two places.
example : concatenateN [97, 0, 0] [97, 98, 99, 0] 5 = none ∧ concatenateN [97, 0, 0] [97, 98, 99, 0] 2 = some [97, 97, 98] := by decide

-- `"a.bc"` and `".b"`.
example : Holds [97, 46, 98, 99, 0, 5] [97, 46, 98, 99] ∧ Holds [46, 98, 0] [46, 98] ∧
    searchString [97, 46, 98, 99, 0, 5] [46, 98, 0] = some (some 1) ∧
    tokenizeByChars [97, 46, 98, 99, 0, 5] [46, 98, 0] [7, 7, 7, 7, 7] = some (2, [97, 0, 7, 7, 7]) ∧
    tokenizeByString strcpy [97, 46, 98, 99, 0, 5] [46, 98, 0] [7, 7, 7, 7, 7] = some (some 3, [97, 0, 7, 7, 7]) ∧
    compareAll [97, 46, 98, 99, 0, 5] [46, 98, 0] = some 2 := by
  refine ⟨⟨by decide, [5], rfl⟩, ⟨by decide, [], rfl⟩, ?_⟩
  decide

end Verif.Props.CStrings
