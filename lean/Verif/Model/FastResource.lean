/-!
# Model of `BareMetal/L1Portability/FastResourceContainer.cpp`

Any number of threads call `Take` and `Return` on one container; every access to a shared variable is one atomic step,
what happens between two of them is local.

Simplifications: `bit`, 0 or a power of two, is represented by a level, 0 for `bit == 0` and `k + 1` for `bit == 2^k`;
`treeHalf` is the level `levels n`; `pathChooser` and `returnChooser` are given bit by bit.  This is exact for at most
2^31 elements (beyond, the loop of the constructor at lines 51-53 does not end).  The counters are unbounded integers:
they stay between minus the number of threads and the number of elements plus the number of threads.
-/
namespace Verif.FastResource

/-- Lines 50-54: the loop looks for the first power of two that is not below the number of elements. -/
def levelsFrom (n k : Nat) : Nat → Nat
  | 0 => k
  | fuel + 1 => if 2 ^ k < n then levelsFrom n (k + 1) fuel else k

def levels (n : Nat) : Nat := levelsFrom n 0 n

/-- The counters that lines 113-119 and 184-190 update, after the first one: `k` is the current level, the last argument
the number of levels left. -/
def climb (pos k : Nat) : Nat → List Nat
  | 0 => []
  | m + 1 => if pos.testBit k then (pos - 2 ^ k) :: climb (pos - 2 ^ k) (k + 1) m else climb pos (k + 1) m

/-- All the counters updated when `p` is taken or returned, in order (lines 112-119, 181-190). -/
def chain (L p : Nat) : List Nat := p :: climb p 0 L

/-- The local variables of `Take`. -/
structure Cursor where
  pos : Nat
  /-- `bit` -/
  lvl : Nat
  /-- `pathChooser`, `returnChooser` -/
  path : Nat → Bool
  ret : Nat → Bool

/-- `w |= bit`, `w &= ~bit` -/
def setBit (w : Nat → Bool) (k : Nat) (b : Bool) : Nat → Bool := fun i => if i = k then b else w i

/-- Where a thread is. -/
inductive PC where
  | idle
  /-- in `Take`, line 103 -/
  | start
  /-- at the head of the loop of `Take`, line 107 -/
  | loop (c : Cursor)
  /-- in the loop, line 132, after a failed `TestAndSet` -/
  | body (c : Cursor)
  /-- line 148: `tot` has been read, `right` has not -/
  | right (c : Cursor) (tot : Int)
  /-- lines 112-119: `p` has been obtained, the counters `todo` have still to be decremented -/
  | dec (p : Nat) (todo : List Nat)
  /-- in `Return`, line 180 -/
  | giving (p : Nat)
  /-- lines 181-190: the counters `todo` have still to be incremented -/
  | inc (todo : List Nat)

/-- What the callers can observe. -/
inductive Obs where
  /-- `Take` returned an index -/
  | took (t p : Nat)
  /-- `Take` returned 0xFFFFFFFF -/
  | failed (t : Nat)
  /-- `Return` was called -/
  | gave (t p : Nat)
deriving DecidableEq, Repr

structure State where
  /-- `treeSize` -/
  n : Nat
  /-- `treeHalf` -/
  L : Nat
  sem : Nat → Bool
  size : Nat → Int
  pcs : List PC
  trace : List Obs
  /-- an element outside of `buffers` was accessed -/
  bad : Bool

def bump (size : Nat → Int) (q : Nat) (d : Int) : Nat → Int := fun i => if i = q then size i + d else size i

/-- `FastResourceContainer.cpp:44-67` the constructor. -/
def init (threads n : Nat) (taken : Bool) : State :=
  { n := n, L := levels n, sem := fun _ => false,
    size := if taken then fun _ => 0
      else (List.range n).foldl (fun size i => (chain (levels n) i).foldl (fun size q => bump size q 1) size) fun _ => 0,
    pcs := List.replicate threads .idle, trace := [], bad := false }

inductive Ev where
  | take (t : Nat)
  | give (t p : Nat)
  /-- the next shared access of the call in progress -/
  | run (t : Nat)
deriving DecidableEq, Repr

def State.goto (s : State) (t : Nat) (p : PC) : State := { s with pcs := s.pcs.set t p }
def State.emit (s : State) (o : Obs) : State := { s with trace := s.trace ++ [o] }
/-- An access to element `q` of `buffers`. -/
def State.touch (s : State) (q : Nat) : State := { s with bad := s.bad || decide (s.n ≤ q) }

/-- Lines 145-149 and 156-160: the read of `right`. -/
def State.rightOf (s : State) (c : Cursor) : Int :=
  if c.pos + 2 ^ (c.lvl - 1) < s.n then s.size (c.pos + 2 ^ (c.lvl - 1)) else 0

/-- Lines 130-167. -/
def bodyStep (s : State) (t : Nat) (c : Cursor) : State :=
  let k := c.lvl - 1
  if c.ret k then
    -- lines 134-138
    let pos := if c.path (k + 1) then c.pos - 2 ^ (k + 1) else c.pos
    s.goto t (.loop { c with ret := setBit c.ret k false, lvl := c.lvl + 1, pos := pos })
  else if c.path k then
    -- lines 142-144
    (s.touch c.pos).goto t
      (.right { c with path := setBit c.path k false, ret := setBit c.ret k true } (s.size c.pos))
  else
    -- lines 155-164
    let c' := { c with path := setBit c.path k true }
    if s.rightOf c > 0 then s.goto t (.loop { c' with pos := c.pos + 2 ^ k, lvl := c.lvl - 1 }) else s.goto t (.loop c')

def step (s : State) (e : Ev) : State :=
  match e with
  | .take t =>
    match s.pcs[t]? with
    | some .idle => s.goto t .start
    | _ => s
  | .give t p =>
    match s.pcs[t]? with
    | some .idle => if p < s.n then (s.goto t (.giving p)).emit (.gave t p) else s
    | _ => s
  | .run t =>
    match s.pcs[t]? with
    | some .start =>
      -- lines 100-106; without elements `buffers` is NULL and `pos` is returned as it is
      if s.n = 0 then (s.goto t .idle).emit (.took t 0)
      else if s.size 0 ≠ 0 then s.goto t (.loop ⟨0, s.L, fun _ => false, fun _ => false⟩)
      else (s.goto t .idle).emit (.failed t)
    | some (.loop c) =>
      if c.lvl > s.L then (s.goto t .idle).emit (.failed t)
      else if c.lvl = 0 then
        -- lines 108-128
        if s.sem c.pos then
          (s.touch c.pos).goto t (.body { c with lvl := 1, pos := if c.path 0 then c.pos - 1 else c.pos })
        else
          { s.touch c.pos with sem := fun i => if i = c.pos then true else s.sem i }.goto t
            (.dec c.pos (chain s.L c.pos))
      else bodyStep s t c
    | some (.body c) => bodyStep s t c
    | some (.right c tot) =>
      -- lines 145-152
      if tot - s.rightOf c > 0 then s.goto t (.loop { c with lvl := c.lvl - 1 }) else s.goto t (.loop c)
    | some (.dec p todo) =>
      match todo with
      | [] => (s.goto t .idle).emit (.took t p)
      | q :: todo => { s.touch q with size := bump s.size q (-1) }.goto t (.dec p todo)
    | some (.giving p) => { s with sem := fun i => if i = p then false else s.sem i }.goto t (.inc (chain s.L p))
    | some (.inc todo) =>
      match todo with
      | [] => s.goto t .idle
      | q :: todo => { s.touch q with size := bump s.size q 1 }.goto t (.inc todo)
    | _ => s

def run (s : State) (es : List Ev) : State := es.foldl step s

/-- Lines 91-97 `GetSize`. -/
def getSize (s : State) : Int := if s.n = 0 then 0 else s.size 0

end Verif.FastResource
