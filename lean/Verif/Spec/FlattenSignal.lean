import Verif.Model.FlattenSignal

/-!
# What flattening the signals should do

The signals of a function are written as a tree: a node with a type, or with nothing inside, is a signal; the other nodes are
namespaces.  The flat signals are the signals of the tree, called by their path with points, a signal of a structured type being
replaced by the basic members of its elements.  Only the data types of the model are used.
-/
namespace Verif.Spec.FlattenSignal

open Verif.FlattenSignal (Name Members Kind Props Nodes Sig Cfg)

def brackets (i : Nat) : Name := '[' :: (Nat.toDigits 10 i ++ [']'])

/-- `s` follows the name of a member with these dimensions in the name of one of its elements: nothing for a single element, else an
index in brackets for each dimension (up to three); a dimension of zero counts as one. -/
def Element (dims : List Nat) (s : Name) : Prop :=
  dims.length ≤ 3 ∧
  (((dims = [] ∨ ∃ r, dims = [r] ∧ r ≤ 1) ∧ s = []) ∨
    (¬ (dims = [] ∨ ∃ r, dims = [r] ∧ r ≤ 1) ∧ ∃ is : List Nat, is.length = dims.length ∧
      (∀ (k i d : Nat), is[k]? = some i → dims[k]? = some d → i < max 1 d) ∧ s = is.flatMap brackets))

/-- The basic members of a structured type: name, type, number of elements. -/
inductive BasicMember : Members → Name → Name → Nat → Prop
  | here (n t e r) : BasicMember (.basic n t e r) n t e
  | inside (n d k r s m t e) : Element d s → BasicMember k m t e → BasicMember (.struct n d k r) (n ++ s ++ '.' :: m) t e
  | afterBasic (n' t' e' r m t e) : BasicMember r m t e → BasicMember (.basic n' t' e' r) m t e
  | afterStruct (n' d' k' r m t e) : BasicMember r m t e → BasicMember (.struct n' d' k' r) m t e

/-- A type is written. -/
def Typed (p : Props) : Prop := ∃ t, p.type = some t ∧ t ≠ []

/-- The signals of a tree, with their names and properties. -/
inductive SignalAt : Nodes → Name → Props → Prop
  | typed (n p k r) : Typed p → SignalAt (.node n p k r) n p
  | untyped (n p r) : ¬ Typed p → SignalAt (.node n p .nil r) n p
  | inside (n p k r m q) : ¬ Typed p → SignalAt k m q → SignalAt (.node n p k r) (n ++ '.' :: m) q
  | later (n p k r m q) : SignalAt r m q → SignalAt (.node n p k r) m q

/-- The data source of a signal: for functions the one written or the default one. -/
def Source (cfg : Cfg) (p : Props) (src : Option Name) : Prop :=
  if cfg.functions then (p.source.isSome ∧ src = p.source) ∨ (p.source = none ∧ cfg.defaultSource ≠ [] ∧ src = some cfg.defaultSource)
  else src = p.source

/-- `k` is the name, or the path of something that contains it. -/
def Below (k full : Name) : Prop := full = k ∨ ∃ rest, full = k ++ '.' :: rest

/-- The alias of a member: what `MemberAliases` says of the first node it is in, else that of the signal and the member. -/
def MemberAlias (p : Props) (base full member : Name) (a : Option Name) : Prop :=
  (∃ k v pre post, p.aliases = pre ++ (k, v) :: post ∧ (∀ x ∈ pre, ¬ Below x.1 full) ∧
    ((full = k ∧ a = some v) ∨ ∃ rest, full = k ++ '.' :: rest ∧ a = some (v ++ '.' :: rest))) ∨
  ((∀ x ∈ p.aliases, ¬ Below x.1 full) ∧ a = if base = [] then none else some (base ++ '.' :: member))

/-- What follows the name of element `i` of a structured signal. -/
def position (p : Props) (i : Nat) : Name :=
  if p.elems.getD 1 > 1 then brackets i
  else if p.dims.getD 0 = 2 then brackets 0 ++ brackets 0
  else if p.dims.getD 0 = 3 then brackets 0 ++ brackets 0 ++ brackets 0
  else []

/-- A flat signal `s` that comes from the signal called `full`. -/
def Gives (cfg : Cfg) (full : Name) (p : Props) (s : Sig) : Prop :=
  ∃ src, Source cfg p src ∧
  (((¬ Typed p ∨ ∃ t, p.type = some t ∧ cfg.types t = .basic) ∧ s.name = full ∧ s.type = p.type ∧ s.elems = p.elems ∧ s.source = src ∧
      s.alias = p.alias ∧ s.freq = p.freq ∧ s.trig = p.trig ∧ s.default = p.default) ∨
    (Typed p ∧ ∃ t ms i m ty el, p.type = some t ∧ cfg.types t = .struct ms ∧ i < max 1 (p.elems.getD 1) ∧ BasicMember ms m ty el ∧
      s.name = full ++ position p i ++ '.' :: m ∧ s.type = some ty ∧ s.elems = some el ∧
      s.default = (p.defaults.find? fun d => d.1 == s.name).map (·.2) ∧
      (cfg.functions = true → s.source = src ∧ s.freq = (if p.sync = some s.name then p.freq else none) ∧
        s.trig = (if p.trigSignal = some s.name then p.trig else none) ∧
        MemberAlias p (if p.alias.getD [] = [] then [] else p.alias.getD [] ++ position p i) s.name m s.alias) ∧
      (cfg.functions = false → s.source = none ∧ s.freq = none ∧ s.trig = none ∧ s.alias = none)))

/-- The keys of `MemberAliases` are names or whole parts of paths: none is the name of a member cut short. -/
def WholeKeys (cfg : Cfg) (full : Name) (p : Props) : Prop :=
  ∀ t ms i m ty el kv, p.type = some t → cfg.types t = .struct ms → i < max 1 (p.elems.getD 1) → BasicMember ms m ty el →
    kv ∈ p.aliases → kv.1 <+: full ++ position p i ++ '.' :: m → Below kv.1 (full ++ position p i ++ '.' :: m)

/-- No structured member has more than three dimensions. -/
def UpToThree : Members → Prop
  | .nil => True
  | .basic _ _ _ r => UpToThree r
  | .struct _ d k r => d.length ≤ 3 ∧ UpToThree k ∧ UpToThree r

/-- `f` is the name of a basic member in every element of the structured signal called `full`. -/
def InEveryElement (full : Name) (p : Props) (ms : Members) (f : Name) : Prop :=
  ∀ i, i < max 1 (p.elems.getD 1) → ∃ m ty el, BasicMember ms m ty el ∧ f = full ++ position p i ++ '.' :: m

/-- What is checked of a signal: it has a data source; its type is known; if it is structured its data source is known, a trigger
comes with the name of a member of every element, and if a frequency comes with the name of a member that is in every element. -/
def Checked (cfg : Cfg) (full : Name) (p : Props) : Prop :=
  ∃ src, Source cfg p src ∧ ∀ t, p.type = some t → t ≠ [] →
    (cfg.types t = .basic ∨ ∃ ms, cfg.types t = .struct ms ∧ UpToThree ms ∧ p.dims.getD 0 ≤ 3 ∧
      ((∃ m ty el, BasicMember ms m ty el) → ∀ s, src = some s → s ≠ [] → cfg.known s = true) ∧
      p.trigSignal.isSome = p.trig.isSome ∧
      (∀ f, p.trigSignal = some f → cfg.functions = true ∧ InEveryElement full p ms f) ∧
      (∀ f, p.sync = some f → p.freq.isSome → cfg.functions = true ∧ InEveryElement full p ms f))

/-- A structured signal should have a frequency if and only if it names the member that synchronises. -/
def SyncPaired (cfg : Cfg) (p : Props) : Prop :=
  ∀ t ms, p.type = some t → t ≠ [] → cfg.types t = .struct ms → p.sync.isSome = p.freq.isSome

/-- The names of the nodes, not of those inside them. -/
def names : Nodes → List Name
  | .nil => []
  | .node n _ _ r => n :: names r

/-- No namespace contains `MemberAliases` or `Defaults`. -/
def NoKeywords : Nodes → Prop
  | .nil => True
  | .node _ p k r => (Typed p ∨ (NoKeywords k ∧ ∀ n ∈ names k, n ≠ "MemberAliases".toList ∧ n ≠ "Defaults".toList)) ∧ NoKeywords r

/-- The names of the members, not of those inside them. -/
def memberNames : Members → List Name
  | .nil => []
  | .basic n _ _ r => n :: memberNames r
  | .struct n _ _ r => n :: memberNames r

/-- A name without points and brackets. -/
def Simple (n : Name) : Prop := n ≠ [] ∧ '.' ∉ n ∧ '[' ∉ n

/-- Nodes of the same node have different, simple names. -/
def Distinct : Nodes → Prop
  | .nil => True
  | .node n _ k r => Simple n ∧ n ∉ names r ∧ Distinct k ∧ Distinct r

def DistinctMembers : Members → Prop
  | .nil => True
  | .basic n _ _ r => Simple n ∧ n ∉ memberNames r ∧ DistinctMembers r
  | .struct n _ k r => Simple n ∧ n ∉ memberNames r ∧ DistinctMembers k ∧ DistinctMembers r

/-- The same nodes below a namespace. -/
def prefixed (n : Name) : Nodes → Nodes
  | .nil => .nil
  | .node m p k r => .node (n ++ '.' :: m) p k (prefixed n r)

def append : Nodes → Nodes → Nodes
  | .nil, b => b
  | .node n p k r, b => .node n p k (append r b)

end Verif.Spec.FlattenSignal
