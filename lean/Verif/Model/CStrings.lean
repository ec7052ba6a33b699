/-!
# Model of `StringHelper`: the portable functions and the extra ones

`Source/Core/BareMetal/L1Portability/Environment/Generic/StringHelper_Portable_Generic.cpp` (here `Portable`) and
`StringHelperExtras_Generic.cpp` (here `Extras`).  A pointer is the list of the bytes from it to the end of its memory; `p[i]` is a walk of
`i` cells, so the loops are recursions over what is left.  A read or a write after the end of the memory is `none`.  The null pointer is
not modelled (each function tests for it), nor are buffers that overlap or texts of more than `2^31` bytes.
-/
namespace Verif.CStrings

/-- A byte as a `char8`, that is signed. -/
def signed (b : Nat) : Int := if b < 128 then b else (b : Int) - 256

/-- `Portable:45-59` `Length`. -/
def length : List Nat → Option Nat
  | [] => none
  | c :: p => if c ≠ 0 then (length p).map (· + 1) else some 0

/-- `Portable:61-92` `Compare`. -/
def compareAll : List Nat → List Nat → Option Nat
  | a :: p, b :: q =>
    if signed a > signed b then some 2
    else if signed a < signed b then some 1
    else if a = 0 ∧ b = 0 then some 0
    else compareAll p q
  | _, _ => none

/-- `Portable:94-129` `CompareN`. -/
def compareN : Nat → List Nat → List Nat → Option Nat
  | 0, _, _ => some 0
  | n + 1, a :: p, b :: q =>
    if signed a > signed b then some 2
    else if signed a < signed b then some 1
    else if a = 0 ∧ b = 0 then some 0
    else compareN n p q
  | _ + 1, _, _ => none

/-- `Portable:143-150`: a capital letter becomes small. -/
def small (c : Nat) : Nat := if 65 ≤ c ∧ c ≤ 90 then c + 32 else c

/-- `Portable:131-173` `CompareNoCaseSensN`. -/
def compareNoCaseN : Nat → List Nat → List Nat → Option Nat
  | 0, _, _ => some 0
  | n + 1, a :: p, b :: q =>
    if small a > small b then some 2
    else if small a < small b then some 1
    else if a = 0 ∧ b = 0 then some 0
    else compareNoCaseN n p q
  | _ + 1, _, _ => none

/-- `Portable:182-186`: the loop that writes the source over the destination. -/
def blit : List Nat → List Nat → Option (List Nat)
  | _, [] => none
  | dst, c :: src =>
    if c ≠ 0 then
      match dst with
      | [] => none
      | _ :: dst => (blit dst src).map (c :: ·)
    else some dst

/-- `Portable:175-193` `Concatenate`, at the end of the destination. -/
def concatenate (dst src : List Nat) : Option (List Nat) :=
  (length dst).bind fun n => (blit (dst.drop n) src).map (dst.take n ++ ·)

/-- `Portable:203-207`: the loop of `ConcatenateN`; the source is read before the size is tested. -/
def blitN : Nat → List Nat → List Nat → Option (List Nat)
  | _, _, [] => none
  | n, dst, c :: src =>
    if c ≠ 0 ∧ 0 < n then
      match dst with
      | [] => none
      | _ :: dst => (blitN (n - 1) dst src).map (c :: ·)
    else some dst

/-- `Portable:195-216` `ConcatenateN`. -/
def concatenateN (dst src : List Nat) (size : Nat) : Option (List Nat) :=
  (length dst).bind fun n => (blitN size (dst.drop n) src).map (dst.take n ++ ·)

/-- `Portable:252`, `266`: `destination[0] = '\0'`. -/
def clear : List Nat → Option (List Nat)
  | [] => none
  | _ :: dst => some (0 :: dst)

/-- `Portable:248-259` `Copy`. -/
def copy (dst src : List Nat) : Option (List Nat) := (clear dst).bind fun d => concatenate d src

/-- `Portable:261-273` `CopyN`. -/
def copyN (dst src : List Nat) (size : Nat) : Option (List Nat) := (clear dst).bind fun d => concatenateN d src size

/-- `Portable:218-246` `SearchChar`: the offset of the result; the inner `none` is the null pointer. -/
def searchChar (c : Nat) : List Nat → Option (Option Nat)
  | [] => none
  | x :: p => if x = c then some (some 0) else if x = 0 then some none else (searchChar c p).map fun r => r.map (· + 1)

/-- `Portable:287-299`: is the character one of `string2`, or the end? -/
def hitIndex (x : Nat) : List Nat → Option Bool
  | [] => none
  | y :: q => if x = y ∨ x = 0 then some true else if y = 0 then some false else hitIndex x q

/-- `Portable:275-307` `SearchIndex`. -/
def searchIndex : List Nat → List Nat → Option Nat
  | [], _ => none
  | x :: p, q => (hitIndex x q).bind fun h => if h then some 0 else (searchIndex p q).map (· + 1)

/-- `Portable:322-341`: the inner loop of `SearchChars` for a character that is not the end (also `Extras:146-166`). -/
def hitChars (x : Nat) : List Nat → Option Bool
  | [] => none
  | y :: q => if x = y then some true else if y = 0 then some false else hitChars x q

/-- `Portable:309-351` `SearchChars`. -/
def searchChars : List Nat → List Nat → Option (Option Nat)
  | [], _ => none
  | x :: p, q =>
    if q = [] then none
    else if x = 0 then some none
    else (hitChars x q).bind fun h => if h then some (some 0) else (searchChars p q).map fun r => r.map (· + 1)

/-- `Portable:361-369`: the loop of `SearchLastChar`, from `index` down. -/
def lastFrom (p : List Nat) (c : Nat) : Nat → Option (Option Nat)
  | 0 => some none
  | i + 1 =>
    match p[i]? with
    | none => none
    | some x => if x = c then some (some i) else lastFrom p c i

/-- `Portable:353-376` `SearchLastChar`. -/
def searchLastChar (p : List Nat) (c : Nat) : Option (Option Nat) := (length p).bind fun n => lastFrom p c n

/-- `Portable:388-396`: the loop of `SearchString`; `k` positions are left, at the pointer `p`. -/
def findFrom (q : List Nat) (n : Nat) : (k : Nat) → List Nat → Option (Option Nat)
  | 0, _ => some none
  | k + 1, p =>
    (compareN n p q).bind fun r => if r = 0 then some (some 0) else (findFrom q n k (p.drop 1)).map fun r => r.map (· + 1)

/-- `Portable:378-403` `SearchString`. -/
def searchString (p q : List Nat) : Option (Option Nat) :=
  (length p).bind fun n => (length q).bind fun m => findFrom q m (n + 1 - m) p

/-- `Portable:405-422` `SetChar`. -/
def setChar (c : Nat) : Nat → List Nat → Option (List Nat)
  | 0, p => some p
  | n + 1, _ :: p => (setChar c n p).map (c :: ·)
  | _ + 1, [] => none

/-- `strcpy` of the C library, that `StringHelper_CLIB_Generic.cpp:168` calls (ISO C 7.24.2.3). -/
def strcpy : List Nat → List Nat → Option (List Nat)
  | [], _ => none
  | _, [] => none
  | _ :: dst, c :: src => if c = 0 then some (0 :: dst) else (strcpy dst src).map (c :: ·)

/-- `Extras:46-86` `Concatenate`: the first loop (`53-65`) writes the first text and its end; the second one (`67-79`), that starts at that
end, is the same as `strcpy`. -/
def concatenate3 : (result string1 string2 : List Nat) → Option (List Nat)
  | [], _, _ => none
  | _, [], _ => none
  | _ :: result, c :: p, q => if c = 0 then strcpy (0 :: result) q else (concatenate3 result p q).map (c :: ·)

/-- `Extras:111-125`: the second loop of `ConcatenateN` and the end of the text. -/
def fill : (size : Nat) → (result string2 : List Nat) → Option (List Nat)
  | 0, [], _ => none
  | 0, _ :: result, _ => some (0 :: result)
  | _ + 1, [], _ => none
  | _ + 1, _, [] => none
  | n + 1, _ :: result, c :: q => if c = 0 then some (0 :: result) else (fill n result q).map (c :: ·)

/-- `Extras:88-131` `ConcatenateN`. -/
def concatenateN4 (size : Nat) : (result string1 string2 : List Nat) → Option (List Nat)
  | [], _, _ => none
  | _, [], _ => none
  | _ :: result, c :: p, q => if c = 0 then fill size (0 :: result) q else (concatenateN4 size result p q).map (c :: ·)

/-- `Extras:133-179` `TokenizeByChars`: the offset of the result in the text, and the token. -/
def tokenizeByChars : (string delimiter result : List Nat) → Option (Nat × List Nat)
  | [], _, _ => none
  | x :: p, q, result =>
    match result with
    | [] => none
    | _ :: result =>
      if x = 0 then (if q = [] then none else some (0, 0 :: result))
      else
        (hitChars x q).bind fun h =>
          if h then some (1, 0 :: result)
          else (tokenizeByChars p q result).map fun r => (r.1 + 1, x :: r.2)

/-- `Extras:192-212`: the loop of `TokenizeByString`; `k` positions are left.  `cp` is `Copy`. -/
def tokenFrom (cp : List Nat → List Nat → Option (List Nat)) (q : List Nat) (n : Nat) :
    (k : Nat) → (string result : List Nat) → Option (Option Nat × List Nat)
  | 0, p, result => (cp result p).map fun r => (none, r)
  | k + 1, p, result =>
    (compareN n p q).bind fun r =>
      match result, p with
      | _ :: result, x :: p =>
        if r = 0 then some (some n, 0 :: result)
        else (tokenFrom cp q n k p result).map fun t => (t.1.map (· + 1), x :: t.2)
      | _ :: result, [] => if r = 0 then some (some n, 0 :: result) else none
      | [], _ => none

/-- `Extras:181-218` `TokenizeByString`: the offset of the result in the text, or null, and the token. -/
def tokenizeByString (cp : List Nat → List Nat → Option (List Nat)) (string terminator result : List Nat) : Option (Option Nat × List Nat) :=
  (length string).bind fun n => (length terminator).bind fun m => tokenFrom cp terminator m (n + 1 - m) string result

/-- `Extras:234-245`: the loop of `Substr`, for `k` characters. -/
def substrLoop : (k : Nat) → (string result : List Nat) → Option (Bool × List Nat)
  | 0, _, [] => none
  | 0, _, _ :: result => some (true, 0 :: result)
  | _ + 1, [], _ => none
  | _ + 1, _, [] => none
  | k + 1, c :: p, _ :: result => if c = 0 then some (false, 0 :: result) else (substrLoop k p result).map fun r => (r.1, c :: r.2)

/-- `Extras:220-250` `Substr`; the number of characters is a `uint32`. -/
def substr («begin» «end» : Nat) (string result : List Nat) : Option (Bool × List Nat) :=
  if «end» < «begin» then some (false, result)
  else substrLoop ((«end» - «begin» + 1) % 2 ^ 32) (string.drop «begin») result

end Verif.CStrings
