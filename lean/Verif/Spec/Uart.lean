import Verif.Model.Uart
/-!
# What a serial port does
-/
namespace Verif.Uart.Spec
open Verif.Uart

/-- The speeds of serial lines, in bits per second. -/
def Standard (v : Nat) : Prop :=
  v ∈ [0, 50, 75, 110, 134, 150, 200, 300, 600, 1200, 1800, 2400, 4800, 9600, 19200, 38400, 57600, 115200] ∨
  v ∈ [230400, 460800, 500000, 576000, 921600, 1000000, 1152000, 1500000, 2000000, 2500000, 3000000, 3500000, 4000000]

/-- Every opening of a history gives the descriptor `n`. -/
def Always (n : Nat) : Op → Prop
  | .open fd _ => fd = some n
  | _ => True

/-- The total of some times. -/
def total : List Nat → Nat
  | [] => 0
  | t :: ts => t + total ts

end Verif.Uart.Spec
