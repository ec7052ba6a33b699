import Verif.Model.Token

/-! ## Specification: the stream cut at its terminators -/
namespace Verif.Spec.Token

/-- The stream cut at every terminator: each piece with the terminator that follows it (the last has none). -/
def segments (isTerm : Char → Bool) : List Char → List (List Char × Option Char)
  | [] => [([], none)]
  | c :: cs =>
    if isTerm c then ([], some c) :: segments isTerm cs
    else match segments isTerm cs with
      | [] => []
      | (w, t) :: r => (c :: w, t) :: r

/-- A zero is always a terminator. -/
def isTerm (term : List Char) (c : Char) : Bool := term.contains c || c == '\x00'
/-- And always skipped. -/
def isSkip (skip : List Char) (c : Char) : Bool := skip.contains c || c == '\x00'

/-- A piece becomes a token without its skipped characters; a piece left empty is dropped, unless it is ended by a
terminator which is not to be skipped. -/
def token? (skip : List Char) (p : List Char × Option Char) : Option (List Char × Char) :=
  let w := p.1.filter (fun c => !isSkip skip c)
  match p.2 with
  | some c => if w ≠ [] ∨ isSkip skip c = false then some (w, c) else none
  | none => if w ≠ [] then some (w, '\x00') else none

def tokens (term skip s : List Char) : List (List Char × Char) := (segments (isTerm term) s).filterMap (token? skip)

/-- The pieces of a text between single occurrences of a separator (as `String.splitOn`), with an empty last one
dropped: the lines of a text. -/
def lines : List Char → List (List Char)
  | [] => []
  | c :: cs => if c = '\n' then [] :: lines cs else match lines cs with
    | [] => [[c]]
    | l :: ls => (c :: l) :: ls

/-- Cutting a word, after the characters `pre`, in pieces of `k` characters: the complete pieces and the rest. -/
def cut (k : Nat) (pre : List Char) : List Char → List (List Char) × List Char
  | [] => ([], pre)
  | c :: cs =>
    if pre.length + 1 ≥ k then ((pre ++ [c]) :: (cut k [] cs).1, (cut k [] cs).2)
    else cut k (pre ++ [c]) cs

/-- Tokens delivered through an array with room for `k` characters and the final zero: every complete piece of `k`
characters is given with its own last character in the place of the terminator. -/
def boundedToken (k : Nat) (skip : List Char) (p : List Char × Option Char) : List (List Char × Char) :=
  let w := p.1.filter (fun c => !isSkip skip c)
  let r := cut k [] w
  r.1.map (fun x => (x, x.getLast?.getD '\x00')) ++ (token? skip (r.2, p.2)).toList

def boundedTokens (k : Nat) (term skip s : List Char) : List (List Char × Char) :=
  (segments (isTerm term) s).flatMap (boundedToken k skip)

end Verif.Spec.Token

namespace Verif.Token
open Verif.Spec.Token

private theorem seg_ne (f : Char → Bool) (s) : segments f s ≠ [] := by
  induction s with
  | nil => simp [segments]
  | cons c cs ih =>
    simp only [segments]
    split
    · simp
    · split
      · contradiction
      · simp

/-- Tokens when `w0` was already read of the current piece. -/
private def from_ (term skip w0 s : List Char) : List (List Char × Char) :=
  match segments (isTerm term) s with
  | [] => []
  | (w, t) :: r => (token? skip (w0 ++ w.filter (fun c => !isSkip skip c), t)).toList ++ r.filterMap (token? skip)

private theorem filter_idem (skip : List Char) (w0 w : List Char) (h : ∀ c ∈ w0, isSkip skip c = false) :
    (w0 ++ w.filter (fun c => !isSkip skip c)).filter (fun c => !isSkip skip c)
      = w0 ++ w.filter (fun c => !isSkip skip c) := by
  rw [List.filter_append, List.filter_filter]
  congr 1
  · apply List.filter_eq_self.mpr; intro c hc; simp [h c hc]
  · simp

private theorem from_nil (term skip s : List Char) : from_ term skip [] s = tokens term skip s := by
  unfold from_ tokens
  cases h : segments (isTerm term) s with
  | nil => rfl
  | cons p r =>
    obtain ⟨w, t⟩ := p
    simp only [List.filterMap_cons, List.nil_append]
    have : token? skip (w.filter (fun c => !isSkip skip c), t) = token? skip (w, t) := by
      simp only [token?, List.filter_filter, Bool.and_self]
    rw [this]
    cases token? skip (w, t) <;> simp

private theorem loop_spec (term skip : List Char) (s out : List Char) (n : Nat) (hn : n = out.length)
    (hlen : out.length + s.length < 2 ^ 32) (hsk : ∀ c ∈ out, isSkip skip c = false) :
    let r := getTokenLoop term skip s n out
    (if r.ok then from_ term skip out s = (r.out, r.sep) :: tokens term skip r.rest ∧
        r.rest.length + 1 ≤ s.length + (if out = [] then 0 else 1)
      else from_ term skip out s = [] ∧ r.rest = []) := by
  subst hn
  induction s generalizing out with
  | nil =>
    simp only [getTokenLoop, from_, segments, List.filter_nil, List.append_nil, List.filterMap_nil]
    have hf : out.filter (fun c => !isSkip skip c) = out := by
      apply List.filter_eq_self.mpr; intro c hc; simp [hsk c hc]
    cases out with
    | nil => simp [token?]
    | cons a b =>
      simp only [List.length_cons, bne_iff_ne, ne_eq, Nat.add_one_ne_zero, not_false_iff, if_true, token?, hf]
      simp [tokens, segments, token?]
  | cons c cs ih =>
    simp only [List.length_cons] at hlen
    have e1 : (searchChar term c || c == '\x00') = isTerm term c := by
      simp only [searchChar, isTerm]; cases term.contains c <;> cases (c == '\x00') <;> rfl
    have e2 : searchChar skip c = isSkip skip c := rfl
    simp only [getTokenLoop, e1, e2]
    by_cases ht : isTerm term c = true
    · rw [if_pos ht]
      have hfrom : from_ term skip out (c :: cs) =
          (token? skip (out, some c)).toList ++ tokens term skip cs := by
        simp only [from_, segments, ht, if_true, List.filter_nil, List.append_nil]; rfl
      have hf : out.filter (fun c => !isSkip skip c) = out := by
        apply List.filter_eq_self.mpr; intro c hc; simp [hsk c hc]
      by_cases hq : (out.length != 0 || !isSkip skip c) = true
      · rw [if_pos hq]
        simp only [if_true, hfrom]
        have : token? skip (out, some c) = some (out, c) := by
          simp only [token?, hf]
          rw [if_pos]
          simp only [Bool.or_eq_true, bne_iff_ne, ne_eq, Bool.not_eq_true'] at hq
          rcases hq with h | h
          · left; intro h2; apply h; simp [h2]
          · right; exact h
        rw [this]
        simp only [Option.toList_some, List.singleton_append, List.length_cons, true_and]
        split <;> omega
      · rw [if_neg hq]
        simp only [Bool.or_eq_true, bne_iff_ne, ne_eq, Bool.not_eq_true', not_or, Decidable.not_not,
          Bool.not_eq_false] at hq
        have hnil : out = [] := List.eq_nil_of_length_eq_zero hq.1
        subst hnil
        have := ih [] (by simp; omega) (by simp)
        rw [hfrom, show token? skip ([], some c) = none by simp [token?, hq.2]]
        simp only [Option.toList_none, List.nil_append, ← from_nil]
        revert this
        simp only
        split
        · rintro ⟨h1, h2⟩; refine ⟨?_, ?_⟩
          · rw [h1, from_nil]
          · simp only [List.length_cons, if_true] at h2 ⊢; omega
        · exact id
    · rw [if_neg ht]
      by_cases hs : isSkip skip c = true
      · simp only [hs, Bool.not_true, Bool.false_eq_true, if_false]
        have := ih out (by omega) hsk
        have hfrom : from_ term skip out (c :: cs) = from_ term skip out cs := by
          simp only [from_, segments, ht]
          cases hseg : segments (isTerm term) cs with
          | nil => exact absurd hseg (seg_ne _ _)
          | cons p r => obtain ⟨w, t⟩ := p; simp [hs]
        rw [hfrom]
        revert this
        simp only
        split
        · rintro ⟨h1, h2⟩; exact ⟨h1, by simp only [List.length_cons]; omega⟩
        · exact id
      · simp only [Bool.not_eq_true] at hs
        simp only [hs, Bool.not_false, if_true]
        have hmod : (out.length + 1) % 2 ^ 32 = (out ++ [c]).length := by
          rw [Nat.mod_eq_of_lt (by omega)]; simp
        rw [hmod]
        have := ih (out ++ [c]) (by simp; omega) (by
          intro d hd; rcases List.mem_append.mp hd with h | h
          · exact hsk d h
          · simp at h; rw [h]; exact hs)
        have hfrom : from_ term skip out (c :: cs) = from_ term skip (out ++ [c]) cs := by
          simp only [from_, segments, ht]
          cases hseg : segments (isTerm term) cs with
          | nil => exact absurd hseg (seg_ne _ _)
          | cons p r => obtain ⟨w, t⟩ := p; simp [hs]
        rw [hfrom]
        revert this
        simp only
        split
        · rintro ⟨h1, h2⟩; refine ⟨h1, ?_⟩
          rw [if_neg (by simp)] at h2
          simp only [List.length_cons]; split <;> omega
        · exact id

/-- **C19.** Calling `GetToken` until it fails gives exactly the tokens of the stream: the stream cut at every
terminator, each piece without its skipped characters, the pieces left empty by skipped terminators dropped, each
token with the terminator that ended it.  (Streams of less than 4 GiB.) -/
theorem c19_tokens (term : List Char) (skip : Option (List Char)) (s : List Char) (fuel : Nat)
    (hf : s.length < fuel) (hs : s.length < 2 ^ 32) :
    collect (fun s => some (getToken term skip s)) fuel s = some (tokens term (skip.getD term) s) := by
  induction fuel generalizing s with
  | zero => omega
  | succ fuel ih =>
    have h := loop_spec term (skip.getD term) s [] 0 rfl (by simpa using hs) (by simp)
    simp only [from_nil, if_true] at h
    simp only [collect, Option.bind_some, getToken]
    split
    · rename_i hok
      rw [if_pos hok] at h
      have h2 := ih (getTokenLoop term (skip.getD term) s 0 []).rest (by omega) (by omega)
      rw [show (fun s => some (getToken term skip s)) = (fun s => some (getTokenLoop term (skip.getD term) s 0 []))
        from rfl] at h2
      rw [h2, h.1]; rfl
    · rename_i hok
      rw [if_neg hok] at h
      rw [h.1]

/-- The usual call: with no skip set, tokens are the maximal non-empty runs of non-terminators. -/
theorem c19_runs (term s : List Char) (fuel : Nat) (hf : s.length < fuel) (hs : s.length < 2 ^ 32) :
    (collect (fun s => some (getToken term none s)) fuel s).map (·.map (·.1)) =
      some (((segments (isTerm term) s).map (·.1)).filter (· ≠ [])) := by
  rw [c19_tokens term none s fuel hf hs]
  simp only [Option.getD_none, Option.map_some, Option.some.injEq, tokens]
  have key : ∀ s : List Char, ∀ p ∈ segments (isTerm term) s, (∀ c ∈ p.1, isTerm term c = false) ∧
      (∀ c, p.2 = some c → isTerm term c = true) := by
    intro s
    induction s with
    | nil => intro p hp; simp [segments] at hp; simp [hp]
    | cons c cs ih =>
      intro p hp
      simp only [segments] at hp
      split at hp
      · rename_i hc
        rcases List.mem_cons.mp hp with h | h
        · rw [h]; simp [hc]
        · exact ih p h
      · rename_i hc
        split at hp
        · simp at hp
        · rename_i w t r hseg
          rw [hseg] at ih
          rcases List.mem_cons.mp hp with h | h
          · rw [h]
            have := ih (w, t) (by simp)
            refine ⟨?_, this.2⟩
            intro d hd
            rcases List.mem_cons.mp hd with h | h
            · rw [h]; simpa using hc
            · exact this.1 d h
          · exact ih p (by simp [h])
  have gen : ∀ l : List (List Char × Option Char),
      (∀ p ∈ l, (∀ c ∈ p.1, isTerm term c = false) ∧ (∀ c, p.2 = some c → isTerm term c = true)) →
      (l.filterMap (token? term)).map (·.1) = (l.map (·.1)).filter (· ≠ []) := by
    intro l
    induction l with
    | nil => intro _; rfl
    | cons p l ih =>
      intro h
      have hp := h p (by simp)
      have hl := ih (fun q hq => h q (by simp [hq]))
      have hfil : p.1.filter (fun c => !isSkip term c) = p.1 := by
        apply List.filter_eq_self.mpr; intro c hc
        have := hp.1 c hc
        simpa [isSkip, isTerm] using this
      obtain ⟨w, t⟩ := p
      simp only at hfil hp
      cases t with
      | none =>
        by_cases hw : w = []
        · subst hw; simp [token?, hl]
        · simp [token?, hfil, hw, hl]
      | some c =>
        have hc : isSkip term c = true := hp.2 c rfl
        by_cases hw : w = []
        · subst hw; simp [token?, hl, hc]
        · simp [token?, hfil, hw, hl]
  exact gen _ (key s)

example : collect (fun s => some (getToken ".,".toList none s)) 100 "..abc,.d.".toList
    = some [("abc".toList, ','), ("d".toList, '.')] := by decide +kernel
example : collect (fun s => some (getToken ".".toList (some " ".toList) s)) 100 "a b..c".toList
    = some [("ab".toList, '.'), ([], '.'), ("c".toList, '\x00')] := by decide +kernel

/-! ### The form with an output array -/

private def fromB (k : Nat) (term skip w0 s : List Char) : List (List Char × Char) :=
  match segments (isTerm term) s with
  | [] => []
  | (w, t) :: r =>
    let q := cut k w0 (w.filter (fun c => !isSkip skip c))
    q.1.map (fun x => (x, x.getLast?.getD '\x00')) ++ (token? skip (q.2, t)).toList ++ r.flatMap (boundedToken k skip)

private theorem fromB_nil (k : Nat) (term skip s : List Char) :
    fromB k term skip [] s = boundedTokens k term skip s := by
  unfold fromB boundedTokens
  cases h : segments (isTerm term) s with
  | nil => rfl
  | cons p r => obtain ⟨w, t⟩ := p; rfl

private theorem arr_spec (size : Nat) (hsz : 2 ≤ size) (term skip : List Char) (s out : List Char)
    (hout : out.length < size - 1) (hsk : ∀ c ∈ out, isSkip skip c = false) :
    ∃ r, getTokenArrLoop size (size - 1) term skip s out = some r ∧ r.out.length < size ∧
    (if r.ok then fromB (size - 1) term skip out s = (r.out, r.sep) :: boundedTokens (size - 1) term skip r.rest ∧
        r.rest.length + 1 ≤ s.length + (if out = [] then 0 else 1)
      else fromB (size - 1) term skip out s = [] ∧ r.rest = []) := by
  have hf : ∀ out : List Char, (∀ c ∈ out, isSkip skip c = false) → out.filter (fun c => !isSkip skip c) = out := by
    intro out hsk; apply List.filter_eq_self.mpr; intro c hc; simp [hsk c hc]
  induction s generalizing out with
  | nil =>
    simp only [getTokenArrLoop]
    rw [if_pos (by omega)]
    refine ⟨_, rfl, by show out.length < size; omega, ?_⟩
    cases out with
    | nil => simp [token?, fromB, segments, cut]
    | cons a b =>
      simp only [List.length_cons, bne_iff_ne, ne_eq, Nat.add_one_ne_zero, not_false_iff, if_true]
      simp only [fromB, segments, List.filter_nil, cut, token?, hf _ hsk]
      simp [boundedTokens, segments, boundedToken, cut, token?]
  | cons c cs ih =>
    have e1 : (searchChar term c || c == '\x00') = isTerm term c := by
      simp only [searchChar, isTerm]; cases term.contains c <;> cases (c == '\x00') <;> rfl
    have e2 : searchChar skip c = isSkip skip c := rfl
    simp only [getTokenArrLoop, e1, e2]
    by_cases ht : isTerm term c = true
    · rw [if_pos ht]
      have hfrom : fromB (size - 1) term skip out (c :: cs) =
          (token? skip (out, some c)).toList ++ boundedTokens (size - 1) term skip cs := by
        simp only [fromB, segments, ht, if_true, List.filter_nil, cut, List.map_nil, List.nil_append]; rfl
      by_cases hq : (out.length != 0 || !isSkip skip c) = true
      · rw [if_pos hq, if_pos (by omega)]
        refine ⟨_, rfl, by show out.length < size; omega, ?_⟩
        simp only [if_true, hfrom]
        have : token? skip (out, some c) = some (out, c) := by
          simp only [token?, hf _ hsk]
          rw [if_pos]
          simp only [Bool.or_eq_true, bne_iff_ne, ne_eq, Bool.not_eq_true'] at hq
          rcases hq with h | h
          · left; intro h2; apply h; simp [h2]
          · right; exact h
        rw [this]
        simp only [Option.toList_some, List.singleton_append, List.length_cons, true_and]
        split <;> omega
      · rw [if_neg hq]
        simp only [Bool.or_eq_true, bne_iff_ne, ne_eq, Bool.not_eq_true', not_or, Decidable.not_not,
          Bool.not_eq_false] at hq
        have hnil : out = [] := List.eq_nil_of_length_eq_zero hq.1
        subst hnil
        obtain ⟨r, h1, h2, h3⟩ := ih [] (by simp; omega) (by simp)
        refine ⟨r, h1, h2, ?_⟩
        rw [hfrom, show token? skip ([], some c) = none by simp [token?, hq.2]]
        simp only [Option.toList_none, List.nil_append, ← fromB_nil]
        revert h3
        split
        · rintro ⟨h1, h2⟩; refine ⟨?_, ?_⟩
          · rw [h1, fromB_nil]
          · simp only [List.length_cons, if_true] at h2 ⊢; omega
        · exact id
    · rw [if_neg ht]
      by_cases hs : isSkip skip c = true
      · simp only [hs, Bool.not_true, Bool.false_eq_true, if_false]
        obtain ⟨r, h1, h2, h3⟩ := ih out hout hsk
        refine ⟨r, h1, h2, ?_⟩
        have hfrom : fromB (size - 1) term skip out (c :: cs) = fromB (size - 1) term skip out cs := by
          simp only [fromB, segments, ht]
          cases hseg : segments (isTerm term) cs with
          | nil => exact absurd hseg (seg_ne _ _)
          | cons p r => obtain ⟨w, t⟩ := p; simp [hs]
        rw [hfrom]
        revert h3
        split
        · rintro ⟨h1, h2⟩; exact ⟨h1, by simp only [List.length_cons]; omega⟩
        · exact id
      · simp only [Bool.not_eq_true] at hs
        simp only [hs, Bool.not_false, if_true]
        rw [if_pos (by omega)]
        by_cases hfull : out.length + 1 ≥ size - 1
        · rw [if_pos hfull, if_pos (by omega)]
          refine ⟨_, rfl, by simp; omega, ?_⟩
          simp only [if_true]
          refine ⟨?_, by simp only [List.length_cons]; omega⟩
          simp only [fromB, segments, ht]
          cases hseg : segments (isTerm term) cs with
          | nil => exact absurd hseg (seg_ne _ _)
          | cons p r =>
            obtain ⟨w, t⟩ := p
            simp only [Bool.false_eq_true, if_false, List.filter_cons, hs, Bool.not_false, if_true, cut, if_pos hfull,
              List.map_cons, boundedTokens, hseg, List.flatMap_cons, boundedToken]
            simp [token?]
        · rw [if_neg hfull]
          obtain ⟨r, h1, h2, h3⟩ := ih (out ++ [c]) (by simp; omega) (by
            intro d hd; rcases List.mem_append.mp hd with h | h
            · exact hsk d h
            · simp at h; rw [h]; exact hs)
          refine ⟨r, h1, h2, ?_⟩
          have hfrom : fromB (size - 1) term skip out (c :: cs) = fromB (size - 1) term skip (out ++ [c]) cs := by
            simp only [fromB, segments, ht]
            cases hseg : segments (isTerm term) cs with
            | nil => exact absurd hseg (seg_ne _ _)
            | cons p r =>
              obtain ⟨w, t⟩ := p
              simp only [Bool.false_eq_true, if_false, List.filter_cons, hs, Bool.not_false, if_true, cut, if_neg hfull]
          rw [hfrom]
          revert h3
          split
          · rintro ⟨h1, h2⟩; refine ⟨h1, ?_⟩
            rw [if_neg (by simp)] at h2
            simp only [List.length_cons]; split <;> omega
          · exact id

/-- **C19, output array.** With an array of at least two characters no write ever falls outside of the array, and
the calls return the tokens, cut in pieces of `size - 1` characters. -/
theorem c19_array (size : Nat) (hsz : 2 ≤ size) (hsz2 : size < 2 ^ 32) (term : List Char) (skip : Option (List Char))
    (s : List Char) (fuel : Nat) (hf : s.length < fuel) :
    collect (getTokenArr size term skip) fuel s = some (boundedTokens (size - 1) term (skip.getD term) s) := by
  have hlim : (size + 2 ^ 32 - 1) % 2 ^ 32 = size - 1 := by
    rw [show size + 2 ^ 32 - 1 = (size - 1) + 2 ^ 32 by omega, Nat.add_mod_right, Nat.mod_eq_of_lt (by omega)]
  induction fuel generalizing s with
  | zero => omega
  | succ fuel ih =>
    obtain ⟨r, h1, _, h⟩ := arr_spec size hsz term (skip.getD term) s [] (by simp; omega) (by simp)
    simp only [fromB_nil, if_true] at h
    simp only [collect, getTokenArr, hlim, h1, Option.bind_some]
    split
    · rename_i hok
      rw [if_pos hok] at h
      have h2 := ih r.rest (by omega)
      rw [h2, h.1]; rfl
    · rename_i hok
      rw [if_neg hok] at h
      rw [h.1]

/-- What "cut in pieces of `k` characters" means: nothing is lost, every complete piece has `k` characters, the rest
has less. -/
theorem c19_cut (k : Nat) (hk : 0 < k) (w : List Char) :
    (cut k [] w).1.flatten ++ (cut k [] w).2 = w ∧ (∀ p ∈ (cut k [] w).1, p.length = k) ∧ (cut k [] w).2.length < k := by
  have gen : ∀ w pre : List Char, pre.length < k →
      (cut k pre w).1.flatten ++ (cut k pre w).2 = pre ++ w ∧ (∀ p ∈ (cut k pre w).1, p.length = k) ∧
        (cut k pre w).2.length < k := by
    intro w
    induction w with
    | nil => intro pre h; simp [cut, h]
    | cons c cs ih =>
      intro pre h
      simp only [cut]
      split
      · have h2 := ih [] (by simpa using hk)
        refine ⟨by simp [h2.1], ?_, h2.2.2⟩
        intro p hp
        rcases List.mem_cons.mp hp with h3 | h3
        · rw [h3]; simp; omega
        · exact h2.2.1 p h3
      · have h2 := ih (pre ++ [c]) (by simp; omega)
        exact ⟨by simp [h2.1], h2.2.1, h2.2.2⟩
  simpa using gen w [] (by simpa using hk)

/-- The property fails for an array of one character: the final zero is written past its end. -/
theorem c19_array_of_one_overflows : getTokenArr 1 ['.'] none ['a'] = none := by decide +kernel

/-- And a token that exactly fills the array is reported with its own last character as terminator. -/
theorem c19_array_wrong_terminator :
    (getTokenArr 3 ['.'] none "ab.c".toList).map (fun r => (r.out, r.sep)) = some ("ab".toList, 'b') := by decide +kernel

example : collect (getTokenArr 3 ['.'] none) 100 "abcde.f".toList =
    some [("ab".toList, 'b'), ("cd".toList, 'd'), ("e".toList, '.'), ("f".toList, '\x00')] := by decide +kernel

/-! ### Lines -/

/-- **GetLine** returns the lines of a text (without the carriage returns if asked so), empty ones included. -/
theorem c19_lines (skipTerminators : Bool) (s : List Char) (fuel : Nat)
    (hf : s.length < fuel) (hs : s.length < 2 ^ 32) (hz : '\x00' ∉ s) (hcr : skipTerminators = true → '\r' ∉ s) :
    (collect (fun s => some (getLine skipTerminators s)) fuel s).map (·.map (·.1)) = some (lines s) := by
  have h := c19_tokens ['\n'] (some (if skipTerminators then ['\r'] else [])) s fuel hf hs
  simp only [getLine]
  rw [h]
  simp only [Option.getD_some, Option.map_some, Option.some.injEq]
  clear h hf hs fuel
  generalize hsk : (if skipTerminators = true then ['\r'] else []) = skip
  have hns : ∀ c ∈ s, isSkip skip c = false := by
    intro c hc
    simp only [isSkip, Bool.or_eq_false_iff, beq_eq_false_iff_ne]
    refine ⟨?_, fun h => hz (h ▸ hc)⟩
    rw [← hsk]
    cases skipTerminators with
    | false => rfl
    | true =>
      simp only [if_true, List.contains_eq_mem, List.mem_singleton, decide_eq_false_iff_not]
      exact fun h => hcr rfl (h ▸ hc)
  have hnl : isSkip skip '\n' = false := by rw [← hsk]; cases skipTerminators <;> decide
  clear hsk hcr
  have key : ∀ s : List Char, '\x00' ∉ s → (∀ c ∈ s, isSkip skip c = false) →
      ∃ w t r, segments (isTerm ['\n']) s = (w, t) :: r ∧ (∀ c ∈ w, isSkip skip c = false) ∧
        (∀ c, t = some c → c = '\n') ∧ (t = none → r = []) ∧
        lines s = (if w = [] ∧ t = none then [] else w :: (r.filterMap (token? skip)).map (·.1)) := by
    intro s
    induction s with
    | nil => intro _ _; exact ⟨[], none, [], rfl, by simp, by simp, by simp, by simp [lines]⟩
    | cons c cs ih =>
      intro hz hns
      obtain ⟨w, t, r, h1, h2, h3, h4, h5⟩ := ih (by intro h; exact hz (by simp [h])) (fun d hd => hns d (by simp [hd]))
      by_cases hc : c = '\n'
      · subst hc
        refine ⟨[], some '\n', (w, t) :: r, ?_, by simp, by simp, by simp, ?_⟩
        · simp [segments, h1, isTerm]
        · simp only [lines, if_true, h5]
          have hfil : w.filter (fun c => !isSkip skip c) = w := by
            apply List.filter_eq_self.mpr; intro c hc; simp [h2 c hc]
          cases t with
          | none =>
            have := h4 rfl; subst this
            by_cases hw : w = []
            · subst hw; simp [token?]
            · simp [token?, hfil, hw]
          | some d =>
            have := h3 d rfl; subst this
            simp [token?, hfil, hnl]
      · have hcz : c ≠ '\x00' := fun h => hz (by simp [h])
        have ht : isTerm ['\n'] c = false := by simp [isTerm, hc, hcz]
        refine ⟨c :: w, t, r, by simp [segments, ht, h1], ?_, h3, h4, ?_⟩
        · intro d hd
          rcases List.mem_cons.mp hd with h | h
          · rw [h]; exact hns c (by simp)
          · exact h2 d h
        · simp only [lines, if_neg hc, h5]
          by_cases hw : w = [] ∧ t = none
          · rw [if_pos hw]; simp [hw.1, h4 hw.2]
          · rw [if_neg hw]; simp
  obtain ⟨w, t, r, h1, h2, h3, h4, h5⟩ := key s hz hns
  have hfil : w.filter (fun c => !isSkip skip c) = w := by
    apply List.filter_eq_self.mpr; intro c hc; simp [h2 c hc]
  rw [tokens, h1, h5]
  cases t with
  | none =>
    have := h4 rfl; subst this
    by_cases hw : w = []
    · subst hw; simp [token?]
    · simp [token?, hfil, hw]
  | some d =>
    have := h3 d rfl; subst this
    simp [token?, hfil, hnl]

example : (collect (fun s => some (getLine false s)) 100 "ab\n\ncd".toList).map (·.map (·.1)) =
    some ["ab".toList, [], "cd".toList] := by decide +kernel

/-! ### SkipTokens -/

/-- How many tokens of the stream are ended by a terminator character (and not by the end of the stream). -/
def _root_.Verif.Spec.Token.endedTokens (term s : List Char) : Nat :=
  ((segments (isTerm term) s).filter (fun p => p.1 ≠ [] ∧ p.2.isSome)).length

private def cnt (term out s : List Char) : Nat :=
  match segments (isTerm term) s with
  | [] => 0
  | (w, t) :: r => (if out ++ w ≠ [] ∧ t.isSome then 1 else 0) + (r.filter (fun p => p.1 ≠ [] ∧ p.2.isSome)).length

private theorem cnt_nil (term s : List Char) : cnt term [] s = endedTokens term s := by
  unfold cnt endedTokens
  cases h : segments (isTerm term) s with
  | nil => rfl
  | cons p r =>
    obtain ⟨w, t⟩ := p
    by_cases hc : w ≠ [] ∧ t.isSome
    · simp only [List.nil_append]; rw [if_pos hc, List.filter_cons_of_pos (by simpa using hc), List.length_cons]; omega
    · simp only [List.nil_append]; rw [if_neg hc, List.filter_cons_of_neg (by simpa using hc)]; omega

private theorem skip_loop (term : List Char) (s : List Char) (k : Nat) (out : List Char)
    (hl : out.length + s.length < 2 ^ 32) :
    (cnt term out s = 0 → skipTokensLoop term s (k + 1) out.length = (false, [])) ∧
    (cnt term out s ≠ 0 →
      skipTokensLoop term s (k + 1) out.length = skipTokensLoop term (getTokenLoop term term s out.length out).rest k 0 ∧
      cnt term out s = 1 + endedTokens term (getTokenLoop term term s out.length out).rest ∧
      (getTokenLoop term term s out.length out).rest.length ≤ s.length) := by
  induction s generalizing out with
  | nil => simp [skipTokensLoop, cnt, segments]
  | cons c cs ih =>
    simp only [List.length_cons] at hl
    have e1 : (searchChar term c || c == '\x00') = isTerm term c := by
      simp only [searchChar, isTerm]; cases term.contains c <;> cases (c == '\x00') <;> rfl
    have e2 : searchChar term c = isTerm term c := rfl
    simp only [skipTokensLoop, getTokenLoop, e1]
    simp only [e2]
    by_cases ht : isTerm term c = true
    · simp only [ht, if_true, Bool.not_true, Bool.or_false]
      have hc : cnt term out (c :: cs) = (if out = [] then 0 else 1) + endedTokens term cs := by
        simp only [cnt, segments, ht, if_true, List.append_nil, endedTokens]
        split <;> rename_i h <;> simp at h <;> simp [h]
      by_cases ho : out = []
      · subst ho
        simp only [List.length_nil, bne_self_eq_false, Bool.false_eq_true, if_false]
        have := ih [] (by simp; omega)
        rw [cnt_nil] at this
        simp only [hc, if_true, Nat.zero_add]
        refine ⟨this.1, fun h => ⟨(this.2 h).1, (this.2 h).2.1, ?_⟩⟩
        have := (this.2 h).2.2
        exact Nat.le_trans this (by simp)
      · have : (out.length != 0) = true := by simp [ho]
        simp only [this, if_true, hc, if_neg ho]
        refine ⟨fun h => by omega, fun _ => ⟨trivial, trivial, ?_⟩⟩
        simp only [List.length_cons]; omega
    · simp only [Bool.not_eq_true] at ht
      simp only [ht, Bool.false_eq_true, if_false, Bool.not_false, if_true]
      have hmod : (out.length + 1) % 2 ^ 32 = (out ++ [c]).length := by
        rw [Nat.mod_eq_of_lt (by omega)]; simp
      rw [hmod]
      have := ih (out ++ [c]) (by simp; omega)
      have hc : cnt term out (c :: cs) = cnt term (out ++ [c]) cs := by
        simp only [cnt, segments, ht]
        cases hseg : segments (isTerm term) cs with
        | nil => exact absurd hseg (seg_ne _ _)
        | cons p r => obtain ⟨w, t⟩ := p; simp
      rw [hc]
      refine ⟨this.1, fun h => ⟨(this.2 h).1, (this.2 h).2.1, ?_⟩⟩
      have := (this.2 h).2.2
      simp only [List.length_cons]; omega

/-- The stream after `k` calls of `GetToken`. -/
def afterCalls (term : List Char) : Nat → List Char → List Char
  | 0, s => s
  | k + 1, s => afterCalls term k (getToken term none s).rest

/-- **SkipTokens** succeeds exactly when the stream has so many tokens ended by a terminator, and then leaves the
stream where as many calls of `GetToken` would have left it; otherwise the stream is exhausted. -/
theorem c19_skip_tokens (term : List Char) (k : Nat) (s : List Char) (hs : s.length < 2 ^ 32) :
    skipTokens k term s =
      if k ≤ endedTokens term s then (true, afterCalls term k s) else (false, []) := by
  unfold skipTokens
  induction k generalizing s with
  | zero => cases s <;> simp [skipTokensLoop, afterCalls]
  | succ k ih =>
    have h := skip_loop term s k [] (by simpa using hs)
    rw [cnt_nil] at h
    simp only [List.length_nil] at h
    by_cases h0 : endedTokens term s = 0
    · rw [h.1 h0, if_neg (by omega)]
    · have h2 := h.2 h0
      rw [h2.1, ih _ (by omega), h2.2.1]
      simp only [afterCalls, getToken, Option.getD_none]
      by_cases hk : k ≤ endedTokens term (getTokenLoop term term s 0 []).rest
      · rw [if_pos hk, if_pos (by omega)]
      · rw [if_neg hk, if_neg (by omega)]

example : skipTokens 2 [','] "a,,b,c,d".toList = (true, "c,d".toList) := by decide +kernel
example : skipTokens 2 [','] "a,b".toList = (false, []) := by decide +kernel

end Verif.Token
