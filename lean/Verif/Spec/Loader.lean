import Verif.Model.Loader
/-! ## Specification: a new configuration -/
namespace Verif.Spec.Loader
open Verif.Loader (Env Cfg Kind)
open Verif.Msg (Err)

variable {T W : Type}

/-- The message `k`, if there is one, is sent while `objs` are registered: the answer (no error if there is none). -/
def told (env : Env T W) (msgs : List Kind) (k : Kind) (objs : List Nat) (w : W) : Err × W :=
  if k ∈ msgs then env.send k objs w else (0, w)

/-- What comes of building the objects of a configuration, and of `PostReconfigure` if they could be built: an error or none, how
many objects are new, those that are registered, their contents. -/
structure Attempt (W : Type) where
  err : Err
  roots : List Nat
  new : List (List Nat)
  w : W

def attempt (env : Env T W) (c : Cfg T) (n : Nat) (w : W) : Attempt W :=
  match env.build c n w with
  | ((false, roots, new), w) => ⟨4, roots, new, w⟩
  | ((true, roots, new), w) => ⟨(env.post roots w).1, roots, new, (env.post roots w).2⟩

/-- Those of some messages that are configured. -/
def those (msgs : List Kind) (l : List Kind) : List Kind := l.filter (· ∈ msgs)

end Verif.Spec.Loader
