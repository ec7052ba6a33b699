import Verif.Model.GamData
/-!
# Specification of the memory of signals (C75)

Only the description of the signals is taken from the model.
-/
namespace Verif.Spec.GamData
open Verif.GamData (Sig)

/-- The bytes that a signal takes. -/
def room (multiple : Bool) (s : Sig) : Nat := if multiple then s.bytes * s.samples else s.bytes

/-- Where the signals begin, one after the other. -/
def start (multiple : Bool) (sigs : List Sig) (k : Nat) : Nat := ((sigs.take k).map (room multiple)).sum

/-- The bytes of signal `k` in the block, all of its samples. -/
def content (multiple : Bool) (sigs : List Sig) (mem : List Nat) (k : Nat) : List Nat :=
  (mem.drop (start multiple sigs k)).take ((sigs[k]?.map (room multiple)).getD 0)

/-- The value that a signal has when nobody wrote it: its default, or zero. -/
def initial (s : Sig) : List Nat :=
  match s.default with
  | some (some b) => b
  | _ => List.replicate s.bytes 0

/-- A default that was accepted has the size of the signal. -/
def DefaultsFit (sigs : List Sig) : Prop := ∀ s, s ∈ sigs → ∀ b, s.default = some (some b) → b.length = s.bytes

/-- Some function reads the signal. -/
def Read (inputs : List (List Nat)) (k : Nat) : Prop := ∃ f, f ∈ inputs ∧ k ∈ f

end Verif.Spec.GamData
