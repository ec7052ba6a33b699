import Verif.Proof.StructDecl
set_option linter.unusedSimpArgs false
/-!
# C84: structures that are declared in the configuration

Property: a structure that is declared with `IntrospectionStructure` has the members of the declaration, in their order, with their types and numbers of
elements, one after the other without holes nor overlaps; its size is the sum of theirs; it is found under its name from then on; declaring it again replaces
it, and nothing else of the database changes; a declaration that cannot be understood is refused and changes nothing.
-/
namespace Verif.Props.StructDecl
open Verif.StructDecl Verif.Spec.StructDecl Verif.Spec.Validate
open Verif.Validate (Text)

/-- **C84**: members of three dimensions at most, of types that have a size, less than 2^32 bytes in all; a name that is free or was declared before. -/
theorem c84_layout_partial (reg : Registry) (name : Text) (ms : List Member) (sizes : List Nat) (children : List (Text × Child)) (hd : Declares ms children)
    (hs : Sizes reg ms sizes) (h3 : ∀ m, m ∈ ms → m.dims.length ≤ 3) (h0 : 0 < sum (bytes ms sizes)) (hl : sum (bytes ms sizes) < 2 ^ 32)
    (hn : ∀ s, ¬ Registered reg name (.native s)) :
    (declare name children reg).1 = true ∧
    (∃ i, Registered (declare name children reg).2 name (.declared i) ∧ Laid ms sizes i) ∧
    ∀ other r, other ≠ name → (Registered (declare name children reg).2 other r ↔ Registered reg other r) := by
  have hm := members_spec reg hd sizes [] 0 hs h3 (by omega)
  rw [List.nil_append, Nat.zero_add] at hm
  have hlaid := laid_entries ms sizes hs.1
  unfold declare
  rw [hm]
  simp only
  rw [if_pos h0]
  cases hk : lookup name reg with
  | none =>
    simp only [lookup_iff]
    refine ⟨trivial, ⟨_, by rw [lookup_append _ _ _ _ hk, if_pos rfl], hlaid⟩, fun other r ho => ?_⟩
    rw [lookup_append _ _ _ _ hk, if_neg ho]
  | some r =>
    cases r with
    | native s => exact absurd (lookup_iff.2 hk) (hn s)
    | declared old =>
      simp only [lookup_iff]
      refine ⟨trivial, ⟨_, by rw [lookup_replace _ _ _ _ _ hk, if_pos rfl], hlaid⟩, fun other r ho => ?_⟩
      rw [lookup_replace _ _ _ _ _ hk, if_neg ho]

/-- **C84**: so no two members overlap, and all of them are inside of the structure. -/
theorem c84_disjoint (ms : List Member) (sizes : List Nat) (i : Intro) (h : Laid ms sizes i) (hs : sizes.length = ms.length) :
    (∀ (j k : Nat) mj mk nj a b, j < k → ms[j]? = some mj → ms[k]? = some mk → sizes[j]? = some nj → i.entries[j]? = some a → i.entries[k]? = some b →
      a.offset + nj * mj.count ≤ b.offset) ∧
    (∀ (k : Nat) m n e, ms[k]? = some m → sizes[k]? = some n → i.entries[k]? = some e → e.offset + n * m.count ≤ i.classSize) := by
  obtain ⟨h1, h2, h3⟩ := h
  refine ⟨fun j k mj mk nj a b hjk hj hk hnj ha hb => ?_, fun k m n e hm hn he => ?_⟩
  · have hkl : k < sizes.length := by rw [hs]; exact (List.getElem?_eq_some_iff.1 hk).1
    rw [(h3 j mj nj a hj hnj ha).2.2.2.2, (h3 k mk sizes[k] b hk (List.getElem?_eq_getElem hkl) hb).2.2.2.2,
      ← sum_take_succ _ j _ (bytes_get ms sizes j mj nj hj hnj)]
    exact sum_take_le _ _ _ hjk
  · rw [(h3 k m n e hm hn he).2.2.2.2, h2, ← sum_take_succ _ k _ (bytes_get ms sizes k m n hm hn)]
    exact sum_take_all _ _

/-- **C84**: a member without a type, or the name of a class of the program: refused, and nothing changes. -/
theorem c84_refused (reg : Registry) (name : Text) (children : List (Text × Child))
    (h : (∃ m e, (m, Child.node none e) ∈ children) ∨ (∃ s, Registered reg name (.native s)) ∨ ∀ m c, (m, c) ∈ children → c = .leaf) :
    declare name children reg = (false, reg) := by
  unfold declare
  rcases h with ⟨m, e, h⟩ | ⟨s, h⟩ | h
  · rw [members_no_type reg m e children [] 0 h]
  · cases hm : members reg children [] 0 with
    | none => rfl
    | some r =>
      obtain ⟨entries, total⟩ := r
      simp only [lookup_iff.1 h]
      split <;> rfl
  · have : ∀ (l : List (Text × Child)), (∀ m c, (m, c) ∈ l → c = .leaf) → members reg l [] 0 = some ([], 0) := by
      intro l
      induction l with
      | nil => intro _; rfl
      | cons x l ih =>
        intro hx
        obtain ⟨m, c⟩ := x
        have := hx m c List.mem_cons_self
        subst this
        rw [members]
        exact ih fun m c hc => hx m c (List.mem_cons_of_mem _ hc)
    rw [this children h]
    rfl

/-- The members of what is registered: name, offset, dimensions, size. -/
private def shown (reg : Registry) : List (List (Text × Nat × Option (List Nat) × Nat)) :=
  reg.map fun x => match x.2 with
    | .declared i => i.entries.map fun e => (e.name, e.offset, e.dims, e.size)
    | .native _ => []

private def one (t : String) : Child := .node (some (word t)) .absent

/-- **C84 fails**: a member of an unknown type is accepted, with no room: the next one has the same place. -/
theorem c84_unknown_fails (type : Text) (hb : ∀ k, (type, k) ∉ basic) (hv : type ≠ word "void") :
    shown (declare [83] [([97], one "int32"), ([98], .node (some type) .absent), ([99], one "int32")] []).2 =
      [[([97], 0, some [], 4), ([98], 4, some [], 0), ([99], 4, some [], 4)]] ∧
    (declare [83] [([97], one "int32"), ([98], .node (some type) .absent), ([99], one "int32")] []).1 = true := by
  have h0 : memberSize [] type = 0 := by
    unfold memberSize
    rw [basicOf_none fun x hx e => by
      rcases basic_all x hx with h | h
      · rw [← e] at h; exact hb _ h
      · exact hv (by rw [e, h])]
    rfl
  have h4 : memberSize [] (word "int32") = 4 := by decide
  simp [declare, members, one, dimensions, h0, h4, totalElements, u32, lookup, shown, modifiersOf, scan]

/-- **C84 fails**: so are no elements: zero are written in the modifiers, and the room is that of one. -/
theorem c84_zero_fails :
    shown (declare [83] [([97], .node (some (word "int32")) (.one [48])), ([98], one "int32")] []).2 = [[([97], 0, some [0], 4), ([98], 4, some [], 4)]] := by
  decide +kernel

/-- **C84 fails**: 2^32 bytes (65536 times 65536) get the room of one. -/
theorem c84_large_fails :
    shown (declare [83] [([97], .node (some (word "uint8")) (.list [54, 53, 53, 51, 54] [[54, 53, 53, 51, 54]])), ([98], one "int32")] []).2 =
      [[([97], 0, some [65536, 65536], 1), ([98], 1, some [], 4)]] := by
  decide +kernel

/-- **C84 fails**: of four dimensions, three are seen. -/
theorem c84_dimensions_fails :
    shown (declare [83] [([97], .node (some (word "int8")) (.list [50] [[50], [50], [53]])), ([98], one "int32")] []).2 =
      [[([97], 0, some [2, 2, 2], 1), ([98], 40, some [], 4)]] := by
  decide +kernel

/-- **C84 fails**: a structure that is declared again with another size leaves the ones that have it as a member as they were: the first member of `O` has now
8 bytes, and the second one is after 4. -/
theorem c84_stale_fails :
    shown (declare [73] [([120], one "int64")] (declare [79] [([97], .node (some [73]) .absent), ([98], one "int32")]
      (declare [73] [([120], one "int32")] []).2).2).2 = [[([120], 0, some [], 8)], [([97], 0, some [], 4), ([98], 4, some [], 4)]] := by
  decide +kernel

/-- A structure of an `int16`, two times three `float64` and a `bool`. -/
example : shown (declare [83] [([67], .leaf), ([97], one "int16"), ([98], .node (some (word "float64")) (.list [50] [[51]])), ([99], one "bool")] []).2 =
    [[([97], 0, some [], 2), ([98], 2, some [2, 3], 8), ([99], 50, some [], 1)]] := by decide +kernel

private theorem decimal1 (c : UInt8) (n : Nat) (hc : Verif.Spec.IntText.IsDigit c) (hn : c.toNat = n + 48) : Decimal n [c] := by
  refine ⟨[c], ?_, by simpa using hc, by simp, ?_, fun h => ?_⟩
  · rw [if_neg (by omega)]; rfl
  · simp [Verif.Spec.IntText.digitsValue, hn]
  · simpa using h

example : Declares [⟨[97], word "int16", []⟩, ⟨[98], word "float64", [2, 3]⟩]
    [([67], .leaf), ([97], one "int16"), ([98], .node (some (word "float64")) (.list [50] [[51]]))] := by
  refine .leaf _ (.member ⟨[97], word "int16", []⟩ .absent (Or.inl rfl) (.member ⟨[98], word "float64", [2, 3]⟩ _ ?_ .nil))
  refine ⟨by simp, [50], [[51]], rfl, rfl, fun i k u hk hu => ?_⟩
  match i with
  | 0 => simp at hk hu; subst hk hu; exact decimal1 50 2 (by unfold Verif.Spec.IntText.IsDigit; decide) rfl
  | 1 => simp at hk hu; subst hk hu; exact decimal1 51 3 (by unfold Verif.Spec.IntText.IsDigit; decide) rfl
  | i + 2 => simp at hk

example : Sizes [] [⟨[97], word "int16", []⟩, ⟨[98], word "float64", [2, 3]⟩] [2, 8] := by
  refine ⟨rfl, fun i m n hm hn => ?_⟩
  match i with
  | 0 => simp at hm hn; subst hm hn; exact Or.inl (by decide)
  | 1 => simp at hm hn; subst hm hn; exact Or.inl (by decide)
  | i + 2 => simp at hm

end Verif.Props.StructDecl
