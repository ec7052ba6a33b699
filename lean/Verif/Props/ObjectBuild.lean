import Verif.Proof.ObjectBuild
import Verif.Proof.Forest2
import Verif.Props.Lexer
/-! ## C62: the objects built from a configuration -/
set_option maxRecDepth 8000
namespace Verif.ObjectBuild
open Verif.ConfigDb (Op Out St Name)
open Verif.Spec.ConfigDb (Db Item Forest Below allAllowed)
open Verif.Spec.ObjectBuild
open Verif.Config (hist_run)

variable {V : Type}

/-- What is given to `Initialise` for the marks, texts and classes of `w`. -/
def env (w : World V) : Env V := ⟨kept w.build, kept w.domain, w.text, w.classes⟩

private theorem same_env {w : World V} (hb : tokensOk w.build = true) (hd : tokensOk w.domain = true) : Same (env w) w :=
  ⟨rfl, rfl, hb, hd, rfl, rfl⟩

/-- A container initialised from a database with any history has, after the objects it had, exactly the objects that the
children of the current node describe, in order, up to the first that cannot be made, and `Initialise` answers whether
all could be made. If so the database behaves as before; if not its current node is the one that could not be made. -/
theorem c62_build (w : World V) (hb : tokensOk w.build = true) (hd : tokensOk w.domain = true)
    (before : List (Op V)) (ha : allAllowed Spec.ConfigDb.empty before = true) (s : St V)
    (hs : (ConfigDb.run ConfigDb.init before).map (·.2) = some s) (F : Forest V)
    (hF : Below (Spec.ConfigDb.run Spec.ConfigDb.empty before).2.item
      (Spec.ConfigDb.run Spec.ConfigDb.empty before).2.cur F) (hdist : F.distinct = true) (hn : w.namesOk F = true)
    (os : List (BObj V)) :
    ∃ M, ∀ fuel, M ≤ fuel → ∃ s', initialise (env w) fuel os s = some ((w.build? F).2.isNone, os ++ (w.build? F).1, s') ∧
      ∀ calls, allAllowed { (Spec.ConfigDb.run Spec.ConfigDb.empty before).2 with
            cur := (Spec.ConfigDb.run Spec.ConfigDb.empty before).2.cur ++ (w.build? F).2.getD [] } calls = true →
        (ConfigDb.run s' calls).map (·.1) = some (Spec.ConfigDb.run { (Spec.ConfigDb.run Spec.ConfigDb.empty before).2 with
            cur := (Spec.ConfigDb.run Spec.ConfigDb.empty before).2.cur ++ (w.build? F).2.getD [] } calls).1 := by
  simp only [World.namesOk, Bool.and_eq_true] at hn
  obtain ⟨s1, e1, g1⟩ := Spec.ConfigDb.hist_size (s := s) ⟨before, ha, hs, rfl⟩
  refine ⟨3 * F.size + 1, fun fuel hf => ?_⟩
  obtain ⟨s2, e2, g2⟩ := init_kids (same_env hb hd) F fuel 0 os s1 _ g1 (Spec.ConfigDb.part_of_below hF) hdist hn.1 hn.2 hf
  refine ⟨s2, by rw [initialise, e1]; exact e2, fun calls hc => ?_⟩
  have : after (Spec.ConfigDb.run Spec.ConfigDb.empty before).2 (w.build? F).2 =
      { (Spec.ConfigDb.run Spec.ConfigDb.empty before).2 with
        cur := (Spec.ConfigDb.run Spec.ConfigDb.empty before).2.cur ++ (w.build? F).2.getD [] } := by
    cases (w.build? F).2 <;> simp [after]
  rw [this] at g2
  obtain ⟨s3, e3, _⟩ := hist_run g2 calls hc
  rw [e3]
  rfl

/-! ### The marks -/

/-- `IsBuildToken` and `IsDomainToken` say whether a character is in the list. -/
theorem c62_is_token (l : List Char) (h : tokensOk l = true) (t : Char) : isToken (kept l) t = decide (t ∈ l) := isToken_kept h t

/-- A token is added unless it is there or the list is full. -/
theorem c62_add_token (l : List Char) (h : tokensOk l = true) (t : Char) (ht : t ≠ '\x00') :
    addToken (kept l) t =
      if t ∈ l then (true, kept l) else if l.length < 5 then (true, kept (l ++ [t])) else (false, kept l) := add_kept h ht

/-- A token is removed, if it is there or the list is not full. -/
theorem c62_remove_token_partial (l : List Char) (h : tokensOk l = true) (t : Char) (ht : t ≠ '\x00')
    (hf : t ∈ l ∨ l.length < 5) : removeToken (kept l) t = some (kept (l.erase t)) := by
  rw [remove_kept h ht, if_pos hf]

/-- Removing a token that is not there from a full list removes the last one. -/
theorem c62_remove_token_fails (l : List Char) (h : tokensOk l = true) (t : Char) (ht : t ≠ '\x00') (hf : t ∉ l)
    (hl : l.length = 5) : removeToken (kept l) t = some (kept l.dropLast) ∧ kept l.dropLast ≠ kept l := by
  refine ⟨by rw [remove_kept h ht, if_neg (by simp [hf, hl])], fun e => ?_⟩
  have hz := no_zero h
  have h1 : kept l = l := by simp [kept, hl]
  have h2 : '\x00' ∈ kept l.dropLast := by simp [kept, hl]
  rw [e, h1] at h2
  exact hz h2

/-! ### Cases -/

/-- Values are texts. `C` is a container, `P` an object with the parameter `x`, which must be there. -/
private def world : World (List Char) where
  build := ['+']
  domain := ['$']
  text := some
  classes := fun c =>
    if c = ['C'] then some ⟨true, [], fun _ => true⟩
    else if c = ['P'] then some ⟨false, [['x']], fun vs => vs.all Option.isSome⟩ else none

/-- What was made, written as texts. -/
private def show' : Nat → List (BObj (List Char)) → List (List Char)
  | 0, _ => []
  | _ + 1, [] => []
  | k + 1, .mk c n d v ks :: r =>
    (c ++ ':' :: n ++ (if d then ['!'] else []) ++ (v.map fun x => (x.getD ['?'])).flatten) ::
      (show' k ks).map (fun t => n ++ '.' :: t) ++ show' k r

private def made (ops : List (Op (List Char))) : Option (Bool × List (List Char) × List (Out (List Char))) :=
  (ConfigDb.run ConfigDb.init ops).bind fun r => (initialise (env world) 40 [] r.2).bind fun q =>
    (ConfigDb.run q.2.2 [.getName, .getNumberOfChildren]).map fun o => (q.1, show' 10 q.2.1, o.1)

private def sampleOps : List (Op (List Char)) :=
  [.createAbsolute "+A".toList, .write "Class".toList ['C'], .write "y".toList "1".toList,
    .createRelative "+B".toList, .write "Class".toList ['P'], .write ['x'] "7".toList, .moveToRoot,
    .createAbsolute "$D".toList, .write "Class".toList ['C'], .moveToRoot, .createAbsolute "E".toList, .moveToRoot]

private def sampleForest : Forest (List Char) :=
  .node "+A".toList (.leaf "Class".toList ['C'] (.leaf ['y'] ['1']
      (.node "+B".toList (.leaf "Class".toList ['P'] (.leaf ['x'] ['7'] .nil)) .nil)))
    (.node "$D".toList (.leaf "Class".toList ['C'] .nil) (.node "E".toList .nil .nil))

/-- A tree of three levels meets the hypotheses. -/
example : allAllowed Spec.ConfigDb.empty sampleOps = true ∧ tokensOk world.build = true ∧ tokensOk world.domain = true ∧
    (∀ q ∈ [[], ["+A".toList], ["+A".toList, "Class".toList], ["+A".toList, "+B".toList], ["+A".toList, "+B".toList, ['x']],
        ["$D".toList], ["E".toList]],
      (Spec.ConfigDb.run Spec.ConfigDb.empty sampleOps).2.item q = sampleForest.item q) ∧
    sampleForest.distinct = true ∧ world.namesOk sampleForest = true ∧ (world.build? sampleForest).2 = none := by
  decide +kernel

/-- It gives a container with an object, and a domain. -/
example : made sampleOps = some (true, ["C:A".toList, "A.P:B7".toList, "C:D!".toList], [.name (some []), .size 3]) := by
  decide +kernel

example : tokensOk ['+', '#'] = true ∧ addToken (kept ['+', '#']) '!' = (true, ['+', '#', '!', '\x00', '\x00']) := by decide

/-! ### Where it fails -/

/-- When an object cannot be made, those before it stay in the container, and the database is left at its node. -/
theorem c62_failure_fails :
    made [.createAbsolute "+A".toList, .write "Class".toList ['C'], .moveToRoot, .createAbsolute "+B.+Z".toList,
      .write "Class".toList ['Q'], .moveToAncestor 1, .write "Class".toList ['C'], .moveToRoot] =
      some (false, ["C:A".toList], [.name (some "+Z".toList), .size 1]) := by decide +kernel

/-- Two nodes whose names differ only in the mark give two objects of the same name. -/
theorem c62_same_name_fails :
    made [.createAbsolute "+A".toList, .write "Class".toList ['C'], .moveToRoot, .createAbsolute "$A".toList,
      .write "Class".toList ['C'], .moveToRoot] =
      some (true, ["C:A".toList, "C:A!".toList], [.name (some []), .size 2]) := by decide +kernel

end Verif.ObjectBuild
