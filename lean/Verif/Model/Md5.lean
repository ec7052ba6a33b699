/-!
# Model of MD5 and of its keyed form

`BareMetal/L1Portability/Md5Encrypt.cpp`.  `osulong` has 64 bits (as on x86_64 Linux): the words of the digest are kept in 64 bits and
never cut.  Memory is a list of bytes; copies are `MemoryOperationsHelper::Copy`.
-/
namespace Verif.Md5

abbrev Byte := BitVec 8
abbrev Long := BitVec 64

/-- Lines 51-57 `MDS5_GET_UINT32_LE`. -/
def getWord (b : List Byte) (i : Nat) : Long :=
  (b.getD i 0).setWidth 64 ||| (b.getD (i + 1) 0).setWidth 64 <<< 8 ||| (b.getD (i + 2) 0).setWidth 64 <<< 16 |||
    (b.getD (i + 3) 0).setWidth 64 <<< 24

/-- Lines 64-70 `MDS5_PUT_UINT32_LE`: the four bytes. -/
def putWord (n : Long) : List Byte :=
  [n.setWidth 8, (n >>> 8).setWidth 8, (n >>> 16).setWidth 8, (n >>> 24).setWidth 8]

/-- Line 76 `S`. -/
def rot (x : Long) (n : Nat) : Long := (x <<< n) ||| ((x &&& 0xFFFFFFFF) >>> (32 - n))

/-- The macros `MDS5_F1` to `MDS5_F4`. -/
inductive Fun where
  | f1 | f2 | f3 | f4
deriving DecidableEq, Repr

/-- Lines 81, 86, 91, 96. -/
def Fun.eval : Fun → Long → Long → Long → Long
  | .f1, x, y, z => z ^^^ (x &&& (y ^^^ z))
  | .f2, x, y, z => y ^^^ (z &&& (x ^^^ y))
  | .f3, x, y, z => x ^^^ y ^^^ z
  | .f4, x, y, z => y ^^^ (x ||| ~~~z)

/-- The variables `A`, `B`, `C`, `D` of lines 280-283. -/
inductive Reg where
  | a | b | c | d
deriving DecidableEq, Repr

/-- Their values; also `state` of line 175. -/
structure Regs where
  a : Long
  b : Long
  c : Long
  d : Long
deriving DecidableEq, Repr

def Regs.get (r : Regs) : Reg → Long
  | .a => r.a
  | .b => r.b
  | .c => r.c
  | .d => r.d

def Regs.set (r : Regs) (v : Long) : Reg → Regs
  | .a => { r with a := v }
  | .b => { r with b := v }
  | .c => { r with c := v }
  | .d => { r with d := v }

/-- The arguments of one `MDS5_P`. -/
structure Step where
  f : Fun
  a : Reg
  b : Reg
  c : Reg
  d : Reg
  k : Nat
  s : Nat
  t : Long
deriving DecidableEq, Repr

/-- Lines 101-104 `MDS5_P`. -/
def runStep (x : List Long) (r : Regs) (p : Step) : Regs :=
  let a := r.get p.a + (p.f.eval (r.get p.b) (r.get p.c) (r.get p.d) + x.getD p.k 0 + p.t)
  r.set (rot a p.s + r.get p.b) p.a

/-- Lines 308-374, in their order. -/
def steps : List Step :=
  [⟨.f1, .a, .b, .c, .d, 0, 7, 0xD76AA478⟩,
   ⟨.f1, .d, .a, .b, .c, 1, 12, 0xE8C7B756⟩,
   ⟨.f1, .c, .d, .a, .b, 2, 17, 0x242070DB⟩,
   ⟨.f1, .b, .c, .d, .a, 3, 22, 0xC1BDCEEE⟩,
   ⟨.f1, .a, .b, .c, .d, 4, 7, 0xF57C0FAF⟩,
   ⟨.f1, .d, .a, .b, .c, 5, 12, 0x4787C62A⟩,
   ⟨.f1, .c, .d, .a, .b, 6, 17, 0xA8304613⟩,
   ⟨.f1, .b, .c, .d, .a, 7, 22, 0xFD469501⟩,
   ⟨.f1, .a, .b, .c, .d, 8, 7, 0x698098D8⟩,
   ⟨.f1, .d, .a, .b, .c, 9, 12, 0x8B44F7AF⟩,
   ⟨.f1, .c, .d, .a, .b, 10, 17, 0xFFFF5BB1⟩,
   ⟨.f1, .b, .c, .d, .a, 11, 22, 0x895CD7BE⟩,
   ⟨.f1, .a, .b, .c, .d, 12, 7, 0x6B901122⟩,
   ⟨.f1, .d, .a, .b, .c, 13, 12, 0xFD987193⟩,
   ⟨.f1, .c, .d, .a, .b, 14, 17, 0xA679438E⟩,
   ⟨.f1, .b, .c, .d, .a, 15, 22, 0x49B40821⟩,
   ⟨.f2, .a, .b, .c, .d, 1, 5, 0xF61E2562⟩,
   ⟨.f2, .d, .a, .b, .c, 6, 9, 0xC040B340⟩,
   ⟨.f2, .c, .d, .a, .b, 11, 14, 0x265E5A51⟩,
   ⟨.f2, .b, .c, .d, .a, 0, 20, 0xE9B6C7AA⟩,
   ⟨.f2, .a, .b, .c, .d, 5, 5, 0xD62F105D⟩,
   ⟨.f2, .d, .a, .b, .c, 10, 9, 0x02441453⟩,
   ⟨.f2, .c, .d, .a, .b, 15, 14, 0xD8A1E681⟩,
   ⟨.f2, .b, .c, .d, .a, 4, 20, 0xE7D3FBC8⟩,
   ⟨.f2, .a, .b, .c, .d, 9, 5, 0x21E1CDE6⟩,
   ⟨.f2, .d, .a, .b, .c, 14, 9, 0xC33707D6⟩,
   ⟨.f2, .c, .d, .a, .b, 3, 14, 0xF4D50D87⟩,
   ⟨.f2, .b, .c, .d, .a, 8, 20, 0x455A14ED⟩,
   ⟨.f2, .a, .b, .c, .d, 13, 5, 0xA9E3E905⟩,
   ⟨.f2, .d, .a, .b, .c, 2, 9, 0xFCEFA3F8⟩,
   ⟨.f2, .c, .d, .a, .b, 7, 14, 0x676F02D9⟩,
   ⟨.f2, .b, .c, .d, .a, 12, 20, 0x8D2A4C8A⟩,
   ⟨.f3, .a, .b, .c, .d, 5, 4, 0xFFFA3942⟩,
   ⟨.f3, .d, .a, .b, .c, 8, 11, 0x8771F681⟩,
   ⟨.f3, .c, .d, .a, .b, 11, 16, 0x6D9D6122⟩,
   ⟨.f3, .b, .c, .d, .a, 14, 23, 0xFDE5380C⟩,
   ⟨.f3, .a, .b, .c, .d, 1, 4, 0xA4BEEA44⟩,
   ⟨.f3, .d, .a, .b, .c, 4, 11, 0x4BDECFA9⟩,
   ⟨.f3, .c, .d, .a, .b, 7, 16, 0xF6BB4B60⟩,
   ⟨.f3, .b, .c, .d, .a, 10, 23, 0xBEBFBC70⟩,
   ⟨.f3, .a, .b, .c, .d, 13, 4, 0x289B7EC6⟩,
   ⟨.f3, .d, .a, .b, .c, 0, 11, 0xEAA127FA⟩,
   ⟨.f3, .c, .d, .a, .b, 3, 16, 0xD4EF3085⟩,
   ⟨.f3, .b, .c, .d, .a, 6, 23, 0x04881D05⟩,
   ⟨.f3, .a, .b, .c, .d, 9, 4, 0xD9D4D039⟩,
   ⟨.f3, .d, .a, .b, .c, 12, 11, 0xE6DB99E5⟩,
   ⟨.f3, .c, .d, .a, .b, 15, 16, 0x1FA27CF8⟩,
   ⟨.f3, .b, .c, .d, .a, 2, 23, 0xC4AC5665⟩,
   ⟨.f4, .a, .b, .c, .d, 0, 6, 0xF4292244⟩,
   ⟨.f4, .d, .a, .b, .c, 7, 10, 0x432AFF97⟩,
   ⟨.f4, .c, .d, .a, .b, 14, 15, 0xAB9423A7⟩,
   ⟨.f4, .b, .c, .d, .a, 5, 21, 0xFC93A039⟩,
   ⟨.f4, .a, .b, .c, .d, 12, 6, 0x655B59C3⟩,
   ⟨.f4, .d, .a, .b, .c, 3, 10, 0x8F0CCC92⟩,
   ⟨.f4, .c, .d, .a, .b, 10, 15, 0xFFEFF47D⟩,
   ⟨.f4, .b, .c, .d, .a, 1, 21, 0x85845DD1⟩,
   ⟨.f4, .a, .b, .c, .d, 8, 6, 0x6FA87E4F⟩,
   ⟨.f4, .d, .a, .b, .c, 15, 10, 0xFE2CE6E0⟩,
   ⟨.f4, .c, .d, .a, .b, 6, 15, 0xA3014314⟩,
   ⟨.f4, .b, .c, .d, .a, 13, 21, 0x4E0811A1⟩,
   ⟨.f4, .a, .b, .c, .d, 4, 6, 0xF7537E82⟩,
   ⟨.f4, .d, .a, .b, .c, 11, 10, 0xBD3AF235⟩,
   ⟨.f4, .c, .d, .a, .b, 2, 15, 0x2AD7D2BB⟩,
   ⟨.f4, .b, .c, .d, .a, 9, 21, 0xEB86D391⟩]

/-- Lines 278-380 `Md5Process`. -/
def process (state : Regs) (data : List Byte) : Regs :=
  let x := (List.range 16).map fun i => getWord data (4 * i)
  let r := steps.foldl (runStep x) state
  ⟨state.a + r.a, state.b + r.b, state.c + r.c, state.d + r.d⟩

/-- Lines 174-176. -/
structure Ctx where
  total0 : Long
  total1 : Long
  state : Regs
  buffer : List Byte
deriving DecidableEq, Repr

/-- Lines 204-212 `Starts`. -/
def starts (c : Ctx) : Ctx := { c with total0 := 0, total1 := 0, state := ⟨0x67452301, 0xEFCDAB89, 0x98BADCFE, 0x10325476⟩ }

/-- Lines 182-195, the constructor. -/
def create : Ctx := starts ⟨0, 0, ⟨0, 0, 0, 0⟩, List.replicate 64 0⟩

/-- `MemoryOperationsHelper::Copy` into the buffer, at a place. -/
def copyTo (buffer : List Byte) (at_ : Nat) (data : List Byte) : List Byte :=
  buffer.take at_ ++ data ++ buffer.drop (at_ + data.length)

/-- Lines 239-243. -/
def blocks (state : Regs) (input : List Byte) : Regs × List Byte :=
  if input.length ≥ 64 then blocks (process state (input.take 64)) (input.drop 64) else (state, input)
termination_by input.length
decreasing_by simp; omega

/-- Lines 214-249 `Update`; `ilen` is the length of `input`. -/
def update (c : Ctx) (input : List Byte) : Ctx :=
  if input.length > 0 then
    let ilen : Long := BitVec.ofNat 64 input.length
    let left := (c.total0 &&& 0x3F).toNat
    let fill := 64 - left
    let total0 := (c.total0 + ilen) &&& 0xFFFFFFFF
    let total1 := if total0 < ilen then c.total1 + 1 else c.total1
    if left ≠ 0 ∧ input.length ≥ fill then
      let buffer := copyTo c.buffer left (input.take fill)
      let r := blocks (process c.state buffer) (input.drop fill)
      ⟨total0, total1, r.1, if r.2.length > 0 then copyTo buffer 0 r.2 else buffer⟩
    else
      let r := blocks c.state input
      ⟨total0, total1, r.1, if r.2.length > 0 then copyTo c.buffer left r.2 else c.buffer⟩
  else c

/-- Lines 106-107 `md5_padding`. -/
def padding : List Byte := 0x80 :: List.replicate 63 0

/-- Lines 251-276 `Finish`: the context and the output. -/
def finish (c : Ctx) : Ctx × List Byte :=
  let high := (c.total0 >>> 29) ||| (c.total1 <<< 3)
  let low := c.total0 <<< 3
  let last := (c.total0 &&& 0x3F).toNat
  let padn := if last < 56 then 56 - last else 120 - last
  let c := update (update c (padding.take padn)) (putWord low ++ putWord high)
  (c, putWord c.state.a ++ putWord c.state.b ++ putWord c.state.c ++ putWord c.state.d)

/-- Lines 430-439 `Md5`. -/
def md5 (input : List Byte) : List Byte := (finish (update (starts create) input)).2

/-- Lines 388-398: a pad with the key. -/
def keyPad (pad : Byte) : List Byte → Nat → List Byte
  | _, 0 => []
  | [], n + 1 => pad :: keyPad pad [] n
  | k :: ks, n + 1 => (pad ^^^ k) :: keyPad pad ks n

/-- Lines 444-456 `Md5Hmac`, with 385-402 `HmacStarts`, 407-410 `HmacUpdate` and 415-425 `HmacFinish`. -/
def hmac (key input : List Byte) : List Byte :=
  let ipad := keyPad 0x36 key 64
  let opad := keyPad 0x5C key 64
  let c := update (update (starts create) ipad) input
  let f := finish c
  (finish (update (update (starts f.1) opad) f.2)).2

end Verif.Md5
