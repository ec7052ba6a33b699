import Verif.Model.AppBuild
/-!
# What is asked of the resolution of signals (C57)

Only the records of the configuration (`Fn`, `FSig`, `DS`, `DSig`) and of its resolution (`RFn`, `RSig`, `VDS`, `VSig`) are used.
-/
namespace Verif.AppBuild.Spec
open Verif.AppBuild

/-- The name a function gives to a signal of the data source: the alias if there is one. -/
def wanted (f : FSig) : Name :=
  match f.alias with
  | some (t :: ts) => t :: ts
  | _ => f.name

/-- Inputs or outputs. -/
inductive Dir where
  | input
  | output
deriving DecidableEq, Repr

def declared : Dir → Fn → List FSig
  | .input, f => f.ins
  | .output, f => f.outs

def resolved : Dir → RFn → List RSig
  | .input, f => f.ins
  | .output, f => f.outs

def areaSize : Dir → RFn → Nat
  | .input, f => f.inSize
  | .output, f => f.outSize

/-- In the configuration `fns` the function number `k` has the signal `f` at the place `j` of a direction, and `r` is what is
resolved for it. -/
structure At (fns : List Fn) (app : List RFn) (d : Dir) (k j : Nat) (fn : Fn) (f : FSig) (r : RSig) : Prop where
  fn_at : fns[k]? = some fn
  sig_at : (declared d fn)[j]? = some f
  res_at : ∃ R, app[k]? = some R ∧ (resolved d R)[j]? = some r

/-- The signal of the data sources that a function signal names. -/
def Named (dss : List VDS) (f : FSig) (v : VSig) : Prop :=
  ∃ s, s ∈ dss ∧ s.name = f.ds ∧ v ∈ s.sigs ∧ v.sig.name = wanted f

/-- The data bases come from `FlattenSignal`: a full type is there only with a type; no type is an empty text; no two data sources nor two signals of one
have the same name. -/
structure Flat (fns : List Fn) (dss : List DS) : Prop where
  fns_typed : ∀ fn ∈ fns, ∀ f, f ∈ fn.ins ∨ f ∈ fn.outs → (f.fullType ≠ [] → f.ty ≠ none) ∧ f.ty ≠ some ""
  dss_typed : ∀ s ∈ dss, ∀ d ∈ s.sigs, (d.fullType ≠ [] → d.ty ≠ none) ∧ d.ty ≠ some ""
  dss_names : (dss.map fun s => s.name).Nodup
  sig_names : ∀ s ∈ dss, (s.sigs.map fun d => d.name).Nodup
  fresh : ∀ s ∈ dss, s.stray = false ∧ ∀ d ∈ s.sigs, d.uses = []

/-- A full type (the types of the structures that contain a signal and its own, from the outermost) in which every type is known. -/
def Complete (full : List String) : Prop := full ≠ [] ∧ "Node" ∉ full

/-- Two full types of the signal with this name: there is a type for every part of the name, and none contradicts another. -/
def SameTypes (name : Name) (a b : List String) : Prop :=
  name.length ≤ a.length ∧ name.length ≤ b.length ∧
  ∀ (i : Nat) x y, i < name.length → a[i]? = some x → b[i]? = some y → x = "Node" ∨ y = "Node" ∨ x = y

/-- The bytes a signal takes in the memory of its function. -/
def area (r : RSig) : Nat := r.byteSize * r.samples

/-- Two ranges of elements have none in common. -/
def Apart (a b : Nat × Nat) : Prop := a.2 < b.1 ∨ b.2 < a.1

/-- All that is said of a signal. -/
structure Profile where
  ty : String
  fullType : List String
  dims : Nat
  elems : Nat
  dflt : Option String
  member : Option Nat

/-- The function signal says exactly this. -/
def Says (f : FSig) (p : Profile) : Prop :=
  f.ty = some p.ty ∧ f.fullType = p.fullType ∧ f.dims = some p.dims ∧ f.elems = some p.elems ∧ f.dflt = p.dflt ∧ f.member = p.member

/-- The data source says exactly this of its signal. -/
def Declares (d : DSig) (p : Profile) : Prop :=
  d.ty = some p.ty ∧ d.fullType = p.fullType ∧ d.dims = some p.dims ∧ d.elems = some p.elems ∧ d.dflt = p.dflt ∧ d.member = p.member

/-- Every signal is described in the same way everywhere: `T` says how. -/
structure Consistent (bits : Types) (T : String → Name → Profile) (fns : List Fn) (dss : List DS) : Prop where
  basic : ∀ s n, bits (T s n).ty ≠ none ∧ (T s n).ty ≠ ""
  some_elements : ∀ s n, 0 < (T s n).elems
  typed : ∀ s n, (T s n).fullType ≠ []
  funs : ∀ fn ∈ fns, ∀ f, f ∈ fn.ins ∨ f ∈ fn.outs →
    Says f (T f.ds (wanted f)) ∧ wanted f ≠ [] ∧ f.samples ≠ some 0 ∧
      (∀ rs, f.ranges = some rs → ∀ r ∈ rs, r.1 ≤ r.2 ∧ r.2 < (T f.ds (wanted f)).elems) ∧
      ∃ s ∈ dss, s.name = f.ds ∧ (s.locked = true → ∃ d ∈ s.sigs, d.name = wanted f)
  sources : ∀ s ∈ dss, ∀ d ∈ s.sigs, Declares d (T s.name d.name) ∧ d.name ≠ []
  states : ∀ fn ∈ fns, fn.states.Nodup
  not_timing : ∀ fn ∈ fns, fn.states ≠ [] → ∀ f ∈ fn.outs, ∀ s ∈ dss, s.name = f.ds → s.timing = false

/-- Two output signals at different places, for the same signal of a data source, in functions of the same state: both say what they
write, and no element is written twice. -/
def OneWriter (fns : List Fn) : Prop :=
  ∀ (k₁ k₂ j₁ j₂ : Nat) (fn₁ fn₂ : Fn) (f₁ f₂ : FSig), fns[k₁]? = some fn₁ → fns[k₂]? = some fn₂ →
    fn₁.outs[j₁]? = some f₁ → fn₂.outs[j₂]? = some f₂ → (k₁, j₁) ≠ (k₂, j₂) → f₁.ds = f₂.ds → wanted f₁ = wanted f₂ →
    (∃ st, st ∈ fn₁.states ∧ st ∈ fn₂.states) →
    ∃ rs₁ rs₂, f₁.ranges = some rs₁ ∧ f₂.ranges = some rs₂ ∧ rs₁.Pairwise Apart ∧ ∀ a ∈ rs₁, ∀ b ∈ rs₂, Apart a b

end Verif.AppBuild.Spec
