/-!
# Model of reading the body of a POST request

`FileSystem/L4HttpService/HttpProtocol.cpp`: the part of `ReadHeader` that reads the body.  The socket is the list of the bytes that come from the
client; each `Read` succeeds or not and delivers at most `k` of them.  The memory for the body is never short.
-/
namespace Verif.PostBody

/-- A byte. -/
abbrev Byte := Nat

/-- What a `Read` of the socket does: its answer, and how many bytes it delivers at most. -/
structure Reading where
  ok : Bool
  k : Nat
deriving DecidableEq, Repr

/-- `HttpProtocol.cpp:299-315`: the loop.  `unread`: `unreadInput`; answers whether all is well, the body and what is left in the socket; `none`: the plan
ends, the loop waits for more data. -/
def loop (bufferSize : Nat) : List Reading → (unread : Int) → (data body : List Byte) → Option (Bool × List Byte × List Byte)
  | plan, unread, data, body =>
    if unread > 0 then
      match plan with
      | [] => none
      | r :: plan =>
        let n := min r.k bufferSize
        if r.ok then loop bufferSize plan (unread - (data.take n).length) (data.drop n) (body ++ data.take n)
        else some (false, body, data.drop n)
    else some (true, body, data)
  termination_by plan => plan.length

/-- `HttpProtocol.cpp:276-315`: a request that has a type of content; `length`: the one declared, -1 without (230-232). -/
def read (bufferSize : Nat) (hasType : Bool) (length : Int) (plan : List Reading) (data : List Byte) : Option (Bool × List Byte × List Byte) :=
  if hasType = true ∧ length > 0 then loop bufferSize plan length data [] else some (false, [], data)

end Verif.PostBody
