/-!
# Model of `BareMetal/L3Streams/Base64Encoder.cpp`

A `StreamString` is the list of its bytes (`List UInt8`).  The C++ locals `word` and `code` are
`uint32`; they never exceed 14 bits here, so they are modelled as `Nat` with the same bit operators.
-/
namespace Verif.Base64

/-- `Base64Encoder.cpp:66` the literal alphabet (65 characters, the last one is `=`). -/
def alphabet : List UInt8 :=
  "ABCDEFGHIJKLMNOPQRSTUVWXYZabcdefghijklmnopqrstuvwxyz0123456789+/=".toList.map
    (fun c => UInt8.ofNat c.toNat)

/-- The character `'='`. -/
def eqChar : UInt8 := 61

/-- `Base64Encoder.cpp:94` `base64Alphabet[code]`; `code` is proved `< 64` at every use
(`Proof/Base64.lean`), so the default value is never taken. -/
def letter (code : Nat) : UInt8 := alphabet.getD code 0

/-- `Base64Encoder.cpp:68-77` constructor of the decoding table: all 0xFF, then the 64 letters, then `=`. -/
def decodingTable : List Nat :=
  let t0 := List.replicate 256 0xFF
  let t1 := (List.range 64).foldl (fun t i => t.set (letter i).toNat i) t0
  t1.set eqChar.toNat 0xFE

/-- `Base64Encoder.cpp:146` `base64Codec.decodingTable[c]` (`c` is a `uint8`, the table has 256 cells). -/
def key (c : UInt8) : Nat := decodingTable.getD c.toNat 0

/-- `Base64Encoder.cpp:82-126` `Encode`.  The loop advances `in` by 3 and decreases the signed `size`
by 3 until it is not positive; simplification: `size` does not wrap (inputs below 2 GB). -/
def encode : List UInt8 → List UInt8
  | [] => []
  | [a] =>                                             -- size == 1, lines 116-120
    let word := a.toNat
    let code := word >>> 2
    let word := word &&& 0x3
    let c0 := letter code
    let word := word <<< 4
    [c0, letter word, eqChar, eqChar]
  | [a, b] =>                                          -- size == 2, lines 110-114
    let word := a.toNat
    let code := word >>> 2
    let word := word &&& 0x3
    let c0 := letter code
    let word := (word <<< 8) ||| b.toNat
    let code := word >>> 4
    let word := word &&& 0xF
    let c1 := letter code
    let word := word <<< 2
    [c0, c1, letter word, eqChar]
  | a :: b :: c :: rest =>                             -- size >= 3, lines 91-109
    let word := a.toNat
    let code := word >>> 2
    let word := word &&& 0x3
    let c0 := letter code
    let word := (word <<< 8) ||| b.toNat
    let code := word >>> 4
    let word := word &&& 0xF
    let c1 := letter code
    let word := (word <<< 8) ||| c.toNat
    let code := word
    let word := word &&& 0x3F
    let code := code >>> 6
    [c0, c1, letter code, letter word] ++ encode rest

/-- `Base64Encoder.cpp:128-219` `Decode`, returning `(ret, output)`.  The loop runs while at least four
characters are left and neither `done` nor an error occurred; fewer than four trailing characters are
ignored (line 140).  `static_cast<char8>(word)` keeps the low 8 bits (`UInt8.ofNat`). -/
def decode : List UInt8 → Bool × List UInt8
  | c0 :: c1 :: c2 :: c3 :: rest =>
    if c0 = eqChar then (true, [])                                       -- 142-144
    else
      let k0 := key c0
      if k0 = 0xFF then (false, [])                                      -- 147-149
      else
        let word := k0
        if c1 = eqChar then (true, [UInt8.ofNat (word <<< 2)])           -- 156-160
        else
          let k1 := key c1
          if k1 = 0xFF then (false, [])                                  -- 163-165
          else
            let word := (word <<< 6) ||| k1
            let o0 := UInt8.ofNat (word >>> 4)
            let word := word &&& 0xF
            if c2 = eqChar then (true, [o0, UInt8.ofNat (word <<< 4)])   -- 177-181
            else
              let k2 := key c2
              if k2 = 0xFF then (false, [o0])                            -- 184-186
              else
                let word := (word <<< 6) ||| k2
                let o1 := UInt8.ofNat (word >>> 2)
                let word := word &&& 0x3
                if c3 = eqChar then (true, [o0, o1])                     -- 198-200
                else
                  let k3 := key c3
                  if k3 = 0xFF then (false, [o0, o1])                    -- 203-205
                  else
                    let word := (word <<< 6) ||| k3
                    let o2 := UInt8.ofNat word
                    let r := decode rest
                    (r.1, o0 :: o1 :: o2 :: r.2)                         -- 208-215
  | _ => (true, [])

end Verif.Base64
