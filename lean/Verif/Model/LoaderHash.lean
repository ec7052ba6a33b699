import Verif.Model.CRC
/-!
# Model of `BareMetal/L6App/ConfigurationLoaderHashCRC.cpp` and of its use in `BareMetal/L6App/Loader.cpp`
-/
namespace Verif.LoaderHash

/-- `ConfigurationLoaderHashCRC.h`: the key (the table is computed from it, `ConfigurationLoaderHashCRC.cpp:56-69`) and the seed. -/
structure Hash where
  key : BitVec 32
  lastSeed : BitVec 32
deriving DecidableEq, Repr

/-- `ConfigurationLoaderHashCRC.cpp:44-46, 56-69`: the constructor and `Initialise`; without `Key` there is no object. -/
def create (key : Option (BitVec 32)) : Option Hash := key.map fun k => ⟨k, 0⟩

/-- `ConfigurationLoaderHashCRC.cpp:51-54` `GetSeed`: the counter of the timer, in 32 bits. -/
def getSeed (h : Hash) (counter : BitVec 64) : BitVec 32 × Hash :=
  (counter.setWidth 32, { h with lastSeed := counter.setWidth 32 })

/-- The memory of a `uint32` (little endian machines). -/
def memoryOf (x : BitVec 32) : List (BitVec 8) :=
  [x.extractLsb' 0 8, x.extractLsb' 8 8, x.extractLsb' 16 8, x.extractLsb' 24 8]

/-- `static_cast<int32>` of a size below 2^32 as the bound of a loop: a negative one runs no iteration. -/
def loopSize (n : Nat) : Nat := if n < 2147483648 then n else 0

/-- `ConfigurationLoaderHashCRC.cpp:71-83` `ComputeHash`; the text is shorter than 2^32 - 4. -/
def computeHash (h : Hash) (input : List (BitVec 8)) : BitVec 32 :=
  let hashMem := memoryOf h.lastSeed ++ input
  CRC.compute (CRC.table 32 h.key) (fun i => hashMem.getD i.toNat 0) (loopSize hashMem.length) 0 false

/-- What `Reconfigure` does with an offered hash: goes on, or refuses and writes both hashes in the stream of errors. -/
inductive Reply where
  | goesOn
  | refused (computed offered : BitVec 32)
deriving DecidableEq, Repr

/-- `Loader.cpp:276-287` `Reconfigure(configuration, errStream, hash)`, up to the reconfiguration. -/
def offer (h : Hash) (text : List (BitVec 8)) (hash : BitVec 32) : Reply :=
  let computed := computeHash h text
  if computed ≠ hash then .refused computed hash else .goesOn

/-- The calls: `GetSeed` when the timer has a value, `Reconfigure`. -/
inductive Op where
  | seed (counter : BitVec 64)
  | offer (text : List (BitVec 8)) (hash : BitVec 32)
deriving DecidableEq, Repr

/-- What they give. -/
inductive Out where
  | seed (s : BitVec 32)
  | reply (r : Reply)
deriving DecidableEq, Repr

/-- A call. -/
def step (h : Hash) : Op → Out × Hash
  | .seed c => (.seed (getSeed h c).1, (getSeed h c).2)
  | .offer t x => (.reply (offer h t x), h)

/-- A sequence of calls. -/
def run (h : Hash) : List Op → List Out × Hash
  | [] => ([], h)
  | op :: ops => ((step h op).1 :: (run (step h op).2 ops).1, (run (step h op).2 ops).2)

end Verif.LoaderHash
