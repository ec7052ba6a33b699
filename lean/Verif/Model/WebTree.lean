import Verif.Model.RefContainer
/-!
# Model of `FileSystem/L4HttpService/HttpObjectBrowser.cpp`: who answers an HTTP request

The tree of objects is the one of the model of the containers (`RefC.Obj`), an object being known by its identity.  The
path is `unMatchedUrl` of the protocol, built from the URL by `BuildUrl` (C67).  The text of the pages, the header and
the cost of a refused authentication are not modelled: the answer says which object answers and with which rest of the
path.  A browser is in the tree of another one as any object, the root it searches being its own children, another
container or the whole database, so that a browser may even find itself.  `none` is the exhaustion of the fuel.
-/
namespace Verif.Web
open Verif.RefC (Obj findPath)

/-- What an object is for the browser: `HttpObjectBrowser.h` (its `Realm` and the children of its `Root`,
`HttpObjectBrowser.cpp:64-123`), an `HttpDirectoryResource`, another `HttpDataExportI`, or none of these. -/
inductive Kind where
  | browser (realm : Option Nat) (root : List Obj)
  | directory
  | exported
  | plain

/-- The request and the configuration.  `allow`: answer of `HttpProtocol::SecurityCheck` for the credentials of the
request (`HttpProtocol.cpp:920-941`).  `hasFile`: whether the file asked for can be opened in that directory
(`HttpDirectoryResource.cpp:152-259`).  `text`: `TextMode` of the request (`HttpService.cpp:165-190`). -/
structure World where
  kind : Nat → Kind
  allow : Nat → Bool
  hasFile : Nat → Bool
  text : Bool
  fuel : Nat

/-- Who answers. -/
inductive Answer where
  /-- 401 because of the realm of this browser -/
  | denied (browser : Nat)
  /-- 404 -/
  | notFound
  /-- the list of the objects of this browser -/
  | list (browser : Nat)
  /-- `ExportData` of an object which exports nothing by itself -/
  | dump (id : Nat)
  /-- `GetAsText` or `GetAsStructuredData` of the object with this rest of the path -/
  | object (id : Nat) (rest : List Char)
deriving DecidableEq

/-- `HttpObjectBrowser.cpp:192-212`: `SearchLastChar` and the cut; the text before the last dot and the one after. -/
def cutLast : List Char → Option (List Char × List Char)
  | [] => none
  | c :: cs =>
    match cutLast cs with
    | some r => some (c :: r.1, r.2)
    | none => if c = '.' then some ([], cs) else none

/-- `HttpObjectBrowser.cpp:358-378` `FindReference`: `none` in the answer is an invalid reference, `inl ()` this. -/
def findReference (fuel : Nat) (root : List Obj) (path : List Char) : Option (Option (Unit ⊕ Obj)) :=
  if path.length > 0 then (findPath fuel path false root).map fun r => r.map .inr else some (some (.inl ()))

/-- `HttpObjectBrowser.cpp:180-223` `FindTarget`: the target and the unmatched path. -/
def findTarget (fuel : Nat) (root : List Obj) : (n : Nat) → (path reparsed : List Char) → Option (Option (Unit ⊕ Obj) × List Char)
  | 0, _, _ => none
  | n + 1, path, reparsed =>
    (findReference fuel root path).bind fun t =>
    match t with
    | some t => some (some t, reparsed)
    | none =>
      match cutLast path with
      | none => some (none, reparsed)
      | some (before, token) =>
        findTarget fuel root n before (if reparsed.length = 0 then token else token ++ '.' :: reparsed)

/-- `HttpObjectBrowser.cpp:326-339`: the first directory among the children that has the file. -/
def directories (w : World) : List Obj → Answer
  | [] => .notFound
  | o :: os =>
    match w.kind o.id with
    | .directory => if w.hasFile o.id then .object o.id [] else directories w os
    | _ => directories w os

/-- `HttpObjectBrowser.cpp:226-356` `GetAsStructuredData`, `GetAsText` of the browser `me` with the children `kids`.
Of `GetAsText` of a directory only the object is kept: the file is chosen by C86. -/
def serve (w : World) : (n : Nat) → (me : Nat) → (kids : List Obj) → (realm : Option Nat) → (root : List Obj) →
    (path : List Char) → Option Answer
  | 0, _, _, _, _, _ => none
  | n + 1, me, kids, realm, root, path =>
    if (match realm with | some r => w.allow r | none => true) then
      (findTarget w.fuel root (path.length + 1) path []).bind fun t =>
      match t.1 with
      | none => some .notFound
      | some (.inl ()) => some (if w.text then directories w kids else .list me)
      | some (.inr o) =>
        match w.kind o.id with
        | .browser realm' root' =>
          if o.id = me then some (if w.text then directories w kids else .list me)
          else serve w n o.id (o.kids?.getD []) realm' root' t.2
        | .directory => some (.object o.id t.2)
        | .exported => some (.object o.id t.2)
        | .plain => some (if w.text then .notFound else .dump o.id)
    else some (.denied me)

end Verif.Web
