import Verif.Model.FnMemory
import Verif.Spec.AppBuild
/-!
# What the data sources must be told (C120)

Only the records of the model (`Told`, `Part`, `Entry`, `Source`) are used.
-/
namespace Verif.FnMemory.Spec
open Verif.AppBuild Verif.AppBuild.Spec

/-- What a data source is told of a signal of a function: its name, the name that the data source gives to it, the bytes it uses, the
samples, where it is in the memory of the function. -/
def plainTold (r : RSig) : Told := ⟨r.sig.name, wanted r.sig, r.offsets, r.samples, r.memory, none⟩

/-- The same with the broker that the data source chose for it. -/
def withBroker (b : Brokers) (ds : String) (out : Bool) (t : Told) : Told := { t with broker := some (b ds out t) }

/-- What the data source named `ds` is told of the signals of one direction of a function: nothing if none of them is for it;
otherwise those that are, in their order, and their size. -/
def part (brokers : Option Brokers) (ds : String) (out : Bool) (rs : List RSig) : Option Part :=
  if rs.filter (fun r => r.sig.ds = ds) = [] then none
  else some ⟨((rs.filter fun r => r.sig.ds = ds).map area).sum,
    (rs.filter fun r => r.sig.ds = ds).map fun r =>
      match brokers with
      | none => plainTold r
      | some b => withBroker b ds out (plainTold r)⟩

/-- The data source named `ds` is told of the functions that have signals for it, in their order, once each. -/
def entries (brokers : Option Brokers) (ds : String) (app : List RFn) : List Entry :=
  (app.filter fun R => (R.ins ++ R.outs).any fun r => r.sig.ds = ds).map fun R =>
    ⟨R.fn.name, part brokers ds false R.ins, part brokers ds true R.outs⟩

/-- The data sources, each told of its functions. -/
def sources (brokers : Option Brokers) (names : List String) (app : List RFn) : List Source :=
  names.map fun n => ⟨n, entries brokers n app⟩

/-- Every function has a name of its own, no alias is an empty text, and the sizes fit in 32 bits. -/
structure Fine (app : List RFn) : Prop where
  names : (app.map fun R => R.fn.name).Nodup
  aliases : ∀ R ∈ app, ∀ r, r ∈ R.ins ∨ r ∈ R.outs → r.sig.alias ≠ some []
  sizes : ∀ R ∈ app, (R.ins.map area).sum < 2 ^ 32 ∧ (R.outs.map area).sum < 2 ^ 32

/-- Every function has signals, all for known data sources. -/
def Known (names : List String) (app : List RFn) : Prop :=
  ∀ R ∈ app, (R.ins ≠ [] ∨ R.outs ≠ []) ∧ ∀ r, r ∈ R.ins ∨ r ∈ R.outs → r.sig.ds ∈ names

/-- The data sources have a broker for every signal. -/
def Served (b : Brokers) (app : List RFn) : Prop :=
  ∀ R ∈ app, (∀ r ∈ R.ins, b r.sig.ds false (plainTold r) ≠ "") ∧ ∀ r ∈ R.outs, b r.sig.ds true (plainTold r) ≠ ""

end Verif.FnMemory.Spec
