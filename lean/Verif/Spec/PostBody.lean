/-!
# The body of a request
-/
namespace Verif.PostBody.Spec

/-- The body is the bytes announced, and what follows is left for the next request. -/
def IsBody (length : Nat) (data body rest : List Nat) : Prop := body.length = length ∧ data = body ++ rest

end Verif.PostBody.Spec
