/-!
# Model of `Endianity` (`BareMetal/L1Portability/Architecture/{x86_gcc,arm_gcc,ppc_gcc}`)

Memory is a function from addresses to bytes.  A register is the list of its bytes in the order of the addresses they were loaded from, so
`bswap`, `xchgb` and `__builtin_bswap` reverse it.  The copies that do not swap are `memcpy` on arm and ppc, whose arguments must not
overlap: there it is the copy of the bytes, in one go.  x86_cl has the functions of x86_gcc, written with intrinsics.
-/
namespace Verif.Endian

abbrev Mem := Nat → Nat

/-- The bytes at an address. -/
def load (m : Mem) (a : Nat) : (n : Nat) → List Nat
  | 0 => []
  | n + 1 => m a :: load m (a + 1) n

def store (m : Mem) (a : Nat) : List Nat → Mem
  | [] => m
  | b :: bs => store (fun x => if x = a then b else m x) (a + 1) bs

inductive Arch where
  | x86
  | arm
  | ppc
  deriving DecidableEq, Repr

inductive Ty where
  | f64
  | f32
  | u64
  | u32
  | u16
  | i64
  | i32
  | i16
  deriving DecidableEq, Repr

/-- The size in bytes. -/
def Ty.size : Ty → Nat
  | .f64 => 8
  | .u64 => 8
  | .i64 => 8
  | .f32 => 4
  | .u32 => 4
  | .i32 => 4
  | .u16 => 2
  | .i16 => 2

/-- `x86_gcc/EndianityA.h:88-95` `Swap16`; `arm_gcc/EndianityADefault.h:78-83`, `ppc_gcc/EndianityADefault.h:78-83`. -/
def swap16 (m : Mem) (x : Nat) : Mem := store m x (load m x 2).reverse

/-- `x86_gcc/EndianityA.h:47-55` `Swap32`; `arm_gcc/EndianityADefault.h:50-54`, `ppc_gcc/EndianityADefault.h:50-54`. -/
def swap32 (m : Mem) (x : Nat) : Mem := store m x (load m x 4).reverse

/-- `x86_gcc/EndianityA.h:128-135` `Swap64`, with two `Swap32`. -/
def swap64x (m : Mem) (x : Nat) : Mem :=
  let m1 := swap32 m x
  let temp := load m1 x 4
  let m2 := swap32 m1 (x + 4)
  let m3 := store m2 x (load m2 (x + 4) 4)
  store m3 (x + 4) temp

/-- `arm_gcc/EndianityADefault.h:107-113`, `ppc_gcc/EndianityADefault.h:107-113` `Swap64`. -/
def swap64b (m : Mem) (x : Nat) : Mem := store m x (load m x 8).reverse

/-- The swap of a variable. -/
def swap (a : Arch) (t : Ty) (m : Mem) (x : Nat) : Mem :=
  match t.size, a with
  | 2, _ => swap16 m x
  | 4, _ => swap32 m x
  | _, .x86 => swap64x m x
  | _, _ => swap64b m x

/-- `x86_gcc/EndianityA.h:150-180`, `arm_gcc/EndianityADefault.h:128-157`, `ppc_gcc/EndianityADefault.h:128-157` `FromBigEndian`. -/
def fromBig (a : Arch) (t : Ty) (m : Mem) (x : Nat) : Mem :=
  match a, t with
  | .ppc, .i16 => m
  | _, _ => swap a t m x

/-- `x86_gcc/EndianityA.h:182-204`, `arm_gcc/EndianityADefault.h:160-182`, `ppc_gcc/EndianityADefault.h:159-189` `FromLittleEndian`. -/
def fromLittle (a : Arch) (t : Ty) (m : Mem) (x : Nat) : Mem :=
  match a with
  | .ppc => swap a t m x
  | _ => m

/-- `x86_gcc/EndianityA.h:206-236`, `arm_gcc/EndianityADefault.h:184-214`, `ppc_gcc/EndianityADefault.h:191-213` `ToBigEndian`. -/
def toBig (a : Arch) (t : Ty) (m : Mem) (x : Nat) : Mem :=
  match a with
  | .ppc => m
  | _ => swap a t m x

/-- `x86_gcc/EndianityA.h:238-260`, `arm_gcc/EndianityADefault.h:216-238`, `ppc_gcc/EndianityADefault.h:215-245` `ToLittleEndian`. -/
def toLittle (a : Arch) (t : Ty) (m : Mem) (x : Nat) : Mem :=
  match a with
  | .ppc => swap a t m x
  | _ => m

/-- `x86_gcc/EndianityA.h:71-86, 111-125, 137-148`: the loops of `MemCopySwap`, upwards. -/
def upLoop (one : Mem → Nat → Nat → Mem) (w : Nat) : (n : Nat) → Mem → (d s : Nat) → Mem
  | 0, m, _, _ => m
  | n + 1, m, d, s => upLoop one w n (one m d s) (d + w) (s + w)

/-- `arm_gcc/EndianityADefault.h:67-76, 96-105, 115-126`, `ppc_gcc/EndianityADefault.h:67-76, 96-105, 115-126`: the loops of `MemCopySwap`, downwards. -/
def downLoop (one : Mem → Nat → Nat → Mem) (w : Nat) : (n : Nat) → Mem → (d s : Nat) → Mem
  | 0, m, _, _ => m
  | n + 1, m, d, s => downLoop one w n (one m (d + w * n) (s + w * n)) d s

/-- One element of `MemCopySwap16` and `MemCopySwap32`, and of `MemCopySwap64` with `__builtin_bswap64`. -/
def oneSwap (w : Nat) (m : Mem) (d s : Nat) : Mem := store m d (load m s w).reverse

/-- `x86_gcc/EndianityA.h:142-147`: one element of `MemCopySwap64`: copied, then swapped in place. -/
def oneSwap64x (m : Mem) (d s : Nat) : Mem := swap64x (store m d (load m s 8)) d

/-- `MemCopySwap16`, `32`, `64`. -/
def copySwap (a : Arch) (t : Ty) (n : Nat) (m : Mem) (d s : Nat) : Mem :=
  match a with
  | .x86 => if t.size = 8 then upLoop oneSwap64x 8 n m d s else upLoop (oneSwap t.size) t.size n m d s
  | _ => downLoop (oneSwap t.size) t.size n m d s

/-- `x86_gcc/EndianityA.h:313-388`: the copy without swap, element by element; elsewhere `memcpy`. -/
def copyPlain (a : Arch) (t : Ty) (n : Nat) (m : Mem) (d s : Nat) : Mem :=
  match a with
  | .x86 => upLoop (fun m d s => store m d (load m s t.size)) t.size n m d s
  | _ => store m d (load m s (t.size * n))

/-- `x86_gcc/EndianityA.h:262-308`, `arm_gcc/EndianityADefault.h:240-286`, `ppc_gcc/EndianityADefault.h:247-293` `MemCopyFromBigEndian`; `MemCopyToBigEndian` is
the same (`390-436`, `336-382`, `343-389`). -/
def copyBig (a : Arch) (t : Ty) (n : Nat) (m : Mem) (d s : Nat) : Mem :=
  match a with
  | .ppc => copyPlain a t n m d s
  | _ => copySwap a t n m d s

/-- `x86_gcc/EndianityA.h:310-388`, `arm_gcc/EndianityADefault.h:288-334`, `ppc_gcc/EndianityADefault.h:295-341` `MemCopyFromLittleEndian`; `MemCopyToLittleEndian` is
the same (`438-516`, `384-430`, `391-437`). -/
def copyLittle (a : Arch) (t : Ty) (n : Nat) (m : Mem) (d s : Nat) : Mem :=
  match a with
  | .ppc => copySwap a t n m d s
  | _ => copyPlain a t n m d s

/-- `Endianity.h:616-636` `Type`: whether little, from the bytes of the variable `test`, at `x`, that held `0xAABB` in the order `big` of the
processor. -/
def typeIsLittle (a : Arch) (big : Bool) (m : Mem) (x : Nat) : Bool :=
  let value := if big then [0xAA, 0xBB] else [0xBB, 0xAA]
  decide (load (toLittle a .u16 (store m x value) x) x 2 = value)

end Verif.Endian
