import Verif.Spec.StructDecl
import Verif.Proof.Validate
set_option linter.unusedSimpArgs false
namespace Verif.StructDecl
open Verif.Spec.StructDecl
open Verif.Validate (readInt Text read_decimal print_decimal)
open Verif.Spec.Validate (Decimal)
open Verif.Spec.IntText (IsDigit digitsValue IsCxxType InRange minVal maxVal)
open Verif.IntText (printDecimal)

/-! ## Numbers -/

theorem cxx32 : IsCxxType ⟨32, false⟩ := Or.inr (Or.inr (Or.inl rfl))

theorem range32 (n : Nat) (h : n < 2 ^ 32) : InRange ⟨32, false⟩ (n : Int) := ⟨by simp [minVal], by simp [maxVal]; omega⟩

theorem readNat_decimal (n : Nat) (h : n < 2 ^ 32) (t : Text) (ht : Decimal n t) : readNat t = some n := by
  unfold readNat
  rw [read_decimal ⟨32, false⟩ cxx32 n (range32 n h) t ht]
  rfl

theorem digitsValue_le : ∀ (body : Text) (a : Int), (∀ c ∈ body, IsDigit c) → 0 ≤ a → a ≤ digitsValue a body
  | [], a, _, _ => Int.le_refl _
  | c :: body, a, h, ha => by
    have hc := h c List.mem_cons_self
    unfold IsDigit at hc
    have := digitsValue_le body (10 * a + ((c.toNat : Int) - 48)) (fun x hx => h x (List.mem_cons_of_mem _ hx)) (by omega)
    show a ≤ digitsValue (10 * a + ((c.toNat : Int) - 48)) body
    omega

theorem scan_digits (n : Nat) (t : Text) (body : Text) : ∀ (a : Nat), (∀ c ∈ body, IsDigit c) → digitsValue (a : Int) body < 4294967296 →
    scan n (some a) (body ++ 93 :: t) = (scan (n + 1) none t).map ((digitsValue (a : Int) body).toNat :: ·) := by
  induction body with
  | nil =>
    intro a _ _
    rw [List.nil_append, scan, if_pos rfl]
    show _ = Option.map (Int.toNat (a : Int) :: ·) _
    rw [Int.toNat_natCast]
  | cons c body ih =>
    intro a h hv
    have hc := h c List.mem_cons_self
    unfold IsDigit at hc
    have hne : c ≠ 93 := fun e => by rw [e] at hc; exact absurd hc.2 (by decide)
    have hstep : digitsValue (a : Int) (c :: body) = digitsValue ((10 * a + (c.toNat - 48) : Nat) : Int) body := by
      show digitsValue (10 * (a : Int) + ((c.toNat : Int) - 48)) body = _
      congr 1
      omega
    rw [hstep] at hv ⊢
    have hle := digitsValue_le body ((10 * a + (c.toNat - 48) : Nat) : Int) (fun x hx => h x (List.mem_cons_of_mem _ hx)) (by omega)
    have hu : u32 (u32 (a * 10) + (if 48 ≤ c.toNat ∧ c.toNat ≤ 57 then c.toNat - 48 else 0)) = 10 * a + (c.toNat - 48) := by
      rw [if_pos hc]
      unfold u32
      omega
    rw [List.cons_append, scan, if_neg hne, hu]
    exact ih _ (fun x hx => h x (List.mem_cons_of_mem _ hx)) hv

theorem scan_modifiers : ∀ (dims : List Nat) (n : Nat), (∀ k, k ∈ dims → k < 2 ^ 32) → n + dims.length ≤ 3 → scan n none (modifiersOf dims) = some dims
  | [], n, _, _ => by rw [modifiersOf, scan]
  | k :: dims, n, h, hn => by
    rw [List.length_cons] at hn
    have hk := h k List.mem_cons_self
    obtain ⟨body, e, hd, _, hv, _⟩ := print_decimal ⟨32, false⟩ cxx32 k (range32 k hk)
    rw [if_neg (by omega), List.nil_append] at e
    rw [modifiersOf, scan, if_pos (by omega), if_pos rfl, e]
    have hv' : digitsValue ((0 : Nat) : Int) body = (k : Int) := by
      have : digitsValue (0 : Int) body = ((k : Int).natAbs : Int) := hv
      rw [Int.natAbs_natCast] at this
      exact this
    rw [scan_digits n _ body 0 hd (by rw [hv']; omega), hv', Int.toNat_natCast,
      scan_modifiers dims (n + 1) (fun x hx => h x (List.mem_cons_of_mem _ hx)) (by omega)]
    rfl

theorem mapM_read : ∀ (ks : List Nat) (ts : List Text), ts.length = ks.length → (∀ k, k ∈ ks → k < 2 ^ 32) →
    (∀ (i : Nat) k u, ks[i]? = some k → ts[i]? = some u → Decimal k u) → ts.mapM readNat = some ks
  | [], [], _, _, _ => rfl
  | k :: ks, t :: ts, hl, hk, h => by
    rw [List.mapM_cons, readNat_decimal k (hk k List.mem_cons_self) t (h 0 k t rfl rfl),
      mapM_read ks ts (by simpa using hl) (fun x hx => hk x (List.mem_cons_of_mem _ hx)) fun i x u hx hu => h (i + 1) x u (by simpa using hx) (by simpa using hu)]
    rfl

theorem dimensions_written : ∀ {dims : List Nat} {e : Elems}, WrittenElems dims e → dimensions e = some dims
  | [], e, h => by
    rcases h with rfl | ⟨t, ht, rfl | rfl⟩
    · rfl
    · rw [dimensions, readNat_decimal 1 (by omega) t ht]; rfl
    · rw [dimensions, readNat_decimal 1 (by omega) t ht]; rfl
  | [n], e, h => by
    obtain ⟨h2, h3, t, ht, rfl | rfl⟩ := h
    · rw [dimensions, readNat_decimal n h3 t ht, Option.map_some, if_neg (by omega)]
    · rw [dimensions, readNat_decimal n h3 t ht, Option.map_some, if_neg (by omega)]
  | n :: m :: l, e, h => by
    obtain ⟨h1, t, r, rfl, hl, h2⟩ := h
    cases r with
    | nil => simp at hl
    | cons u r =>
      rw [dimensions]
      exact mapM_read _ _ hl (fun k hk => (h1 k hk).2) h2

theorem written_range : ∀ {dims : List Nat} {e : Elems}, WrittenElems dims e → ∀ k, k ∈ dims → 1 ≤ k ∧ k < 2 ^ 32
  | [], _, _, k, hk => by cases hk
  | [n], e, h, k, hk => by
    obtain ⟨h2, h3, _⟩ := h
    simp at hk
    omega
  | n :: m :: l, e, h, k, hk => h.1 k hk

theorem prod_pos : ∀ (l : List Nat), (∀ k, k ∈ l → 1 ≤ k) → 1 ≤ l.foldr (· * ·) 1
  | [], _ => Nat.le_refl _
  | k :: l, h => Nat.mul_le_mul (h k List.mem_cons_self) (prod_pos l fun x hx => h x (List.mem_cons_of_mem _ hx))

theorem fold_prod : ∀ (l : List Nat) (a : Nat), (∀ k, k ∈ l → 1 ≤ k) → a * l.foldr (· * ·) 1 < 2 ^ 32 →
    l.foldl (fun t n => if n > 0 then u32 (t * n) else t) a = a * l.foldr (· * ·) 1
  | [], a, _, _ => by simp
  | k :: l, a, h, hl => by
    have hk := h k List.mem_cons_self
    have hr := prod_pos l fun x hx => h x (List.mem_cons_of_mem _ hx)
    rw [List.foldr_cons, ← Nat.mul_assoc] at hl
    have : a * k ≤ a * k * l.foldr (· * ·) 1 := Nat.le_mul_of_pos_right _ hr
    rw [List.foldl_cons, if_pos (by omega), show u32 (a * k) = a * k by unfold u32; omega,
      fold_prod l (a * k) (fun x hx => h x (List.mem_cons_of_mem _ hx)) hl, List.foldr_cons, Nat.mul_assoc]

theorem total_count (m : Member) (h : ∀ k, k ∈ m.dims → 1 ≤ k) (hl : m.count < 2 ^ 32) : totalElements m.dims = m.count := by
  have hp := prod_pos m.dims h
  have := fold_prod m.dims 1 h (by rw [Nat.one_mul]; exact hl)
  unfold totalElements
  simp only [this]
  rw [Nat.one_mul, if_neg (by omega)]
  rfl

/-! ## The database -/

theorem lookup_iff {name : Text} : ∀ {reg : Registry} {r : Reg}, Registered reg name r ↔ lookup name reg = some r
  | [], r => by simp [Registered, lookup]
  | x :: l, r => by
    unfold lookup
    by_cases hx : x.1 = name
    · rw [if_pos hx]
      constructor
      · rintro ⟨n, h1, h3⟩
        cases n with
        | zero => simp at h1; rw [h1]
        | succ n => exact absurd hx (h3 0 x (by omega) rfl)
      · intro e
        refine ⟨0, ?_, fun m j hm => by omega⟩
        cases e
        cases hx
        rfl
    · rw [if_neg hx, ← lookup_iff (reg := l)]
      constructor
      · rintro ⟨n, h1, h3⟩
        cases n with
        | zero => simp at h1; subst h1; exact absurd rfl hx
        | succ n => exact ⟨n, by simpa using h1, fun m j hm hj => h3 (m + 1) j (by omega) (by simpa using hj)⟩
      · rintro ⟨n, h1, h3⟩
        refine ⟨n + 1, by simpa using h1, fun m j hm hj => ?_⟩
        cases m with
        | zero => simp at hj; subst hj; exact hx
        | succ m => exact h3 m j (by omega) (by simpa using hj)

theorem lookup_append (name other : Text) (r : Reg) : ∀ (reg : Registry), lookup name reg = none →
    lookup other (reg ++ [(name, r)]) = if other = name then some r else lookup other reg
  | [], _ => by
    simp only [List.nil_append, lookup]
    by_cases h : other = name
    · rw [if_pos h, if_pos h.symm]
    · rw [if_neg h, if_neg fun e => h e.symm]
  | x :: l, h => by
    unfold lookup at h
    split at h
    · cases h
    · rename_i hx
      rw [List.cons_append, lookup, lookup, lookup_append name other r l h]
      by_cases ho : other = name
      · subst ho
        rw [if_neg hx, if_pos rfl, if_pos rfl]
      · rw [if_neg ho, if_neg ho]

theorem lookup_replace (name other : Text) (r old : Reg) : ∀ (reg : Registry), lookup name reg = some old →
    lookup other (replace name r reg) = if other = name then some r else lookup other reg
  | x :: l, h => by
    unfold lookup at h
    unfold replace
    split at h
    · rename_i hx
      rw [if_pos hx, lookup, lookup]
      by_cases ho : other = name
      · rw [if_pos (by rw [hx, ho]), if_pos ho]
      · rw [if_neg (fun e => ho (by rw [← e, hx])), if_neg ho, if_neg (fun e => ho (by rw [← e, hx]))]
    · rename_i hx
      rw [if_neg hx, lookup, lookup, lookup_replace name other r old l h]
      by_cases ho : other = name
      · subst ho
        rw [if_neg hx, if_pos rfl, if_pos rfl]
      · rw [if_neg ho, if_neg ho]

/-! ## Sizes -/

theorem basicOf_none {type : Text} : ∀ {l : List (Text × Nat)}, (∀ x, x ∈ l → type ≠ x.1) → basicOf type l = none
  | [], _ => rfl
  | x :: l, h => by
    rw [basicOf, if_neg (h x List.mem_cons_self)]
    exact basicOf_none fun y hy => h y (List.mem_cons_of_mem _ hy)

theorem basic_all : ∀ x, x ∈ basicBits → (x.1, x.2 / 8) ∈ basic ∨ x.1 = word "void" := by decide

theorem basic_bits : ∀ x, x ∈ basic → basicOf x.1 basicBits = some (8 * x.2) := by decide

theorem memberSize_eq {reg : Registry} {type : Text} {n : Nat} (h : HasSize reg type n) : memberSize reg type = n := by
  unfold memberSize
  rcases h with h | ⟨h1, h2, h3⟩
  · have := basic_bits _ h
    simp only at this
    rw [this]
    simp only
    omega
  · rw [basicOf_none fun x hx e => by
      rcases basic_all x hx with hb | hb
      · rw [← e] at hb; exact h1 _ hb
      · exact h2 (by rw [e, hb])]
    rcases h3 with h3 | ⟨i, h3, rfl⟩
    · rw [lookup_iff.1 h3]
    · rw [lookup_iff.1 h3]

/-! ## The loop -/

/-- The entries of the members, from an offset. -/
def entriesOf : List Member → List Nat → Nat → List Entry
  | m :: ms, n :: ns, o => ⟨m.name, m.type, modifiersOf m.dims, n, o, some m.dims⟩ :: entriesOf ms ns (o + n * m.count)
  | _, _, _ => []

theorem members_spec (reg : Registry) {ms : List Member} {children : List (Text × Child)} (h : Declares ms children) :
    ∀ (sizes : List Nat) (acc : List Entry) (total : Nat), Sizes reg ms sizes → (∀ m, m ∈ ms → m.dims.length ≤ 3) → total + sum (bytes ms sizes) < 2 ^ 32 →
      members reg children acc total = some (acc ++ entriesOf ms sizes total, total + sum (bytes ms sizes)) := by
  induction h with
  | nil => intro sizes acc total _ _ _; simp [members, entriesOf, bytes, sum]
  | leaf name _ ih => intro sizes acc total h1 h2 h3; rw [members]; exact ih sizes acc total h1 h2 h3
  | member m e hw _ ih =>
    rename_i ms l _
    intro sizes acc total h1 h2 h3
    cases sizes with
    | nil => exact absurd h1.1 (by simp)
    | cons n ns =>
      have hs := memberSize_eq (h1.2 0 m n rfl rfl)
      have hrange := written_range hw
      simp only [bytes, sum] at h3
      have hmul : u32 (n * totalElements m.dims) = n * m.count := by
        by_cases hn : n = 0
        · subst hn; simp [u32]
        · have : m.count ≤ n * m.count := Nat.le_mul_of_pos_left _ (by omega)
          rw [total_count m (fun k hk => (hrange k hk).1) (by omega)]
          unfold u32
          omega
      simp only [members, dimensions_written hw]
      rw [hs, hmul, show u32 (total + n * m.count) = total + n * m.count by unfold u32; omega,
        scan_modifiers m.dims 0 (fun k hk => (hrange k hk).2) (by have := h2 m List.mem_cons_self; omega)]
      rw [ih ns _ _ ⟨by simpa using h1.1, fun i x y hx hy => h1.2 (i + 1) x y (by simpa using hx) (by simpa using hy)⟩
        (fun x hx => h2 x (List.mem_cons_of_mem _ hx)) (by omega)]
      simp only [entriesOf, bytes, sum, List.append_assoc, List.cons_append, List.nil_append, Nat.add_assoc]

theorem entries_length : ∀ (ms : List Member) (ns : List Nat) (o : Nat), ns.length = ms.length → (entriesOf ms ns o).length = ms.length
  | [], _, _, _ => by simp [entriesOf]
  | m :: ms, n :: ns, o, h => by simp [entriesOf, entries_length ms ns _ (by simpa using h)]

theorem entries_get : ∀ (ms : List Member) (ns : List Nat) (o k : Nat) (m : Member) (n : Nat), ms[k]? = some m → ns[k]? = some n →
    (entriesOf ms ns o)[k]? = some ⟨m.name, m.type, modifiersOf m.dims, n, o + sum ((bytes ms ns).take k), some m.dims⟩
  | x :: ms, y :: ns, o, 0, m, n, h1, h2 => by
    simp at h1 h2
    subst h1 h2
    simp [entriesOf, sum]
  | x :: ms, y :: ns, o, k + 1, m, n, h1, h2 => by
    simp only [List.getElem?_cons_succ] at h1 h2
    simp only [entriesOf, List.getElem?_cons_succ, entries_get ms ns _ k m n h1 h2, bytes, List.take_succ_cons, sum, Nat.add_assoc]

theorem laid_entries (ms : List Member) (ns : List Nat) (h : ns.length = ms.length) : Laid ms ns ⟨entriesOf ms ns 0, sum (bytes ms ns)⟩ := by
  refine ⟨entries_length ms ns 0 h, rfl, fun k m n e h1 h2 h3 => ?_⟩
  simp only at h3
  rw [entries_get ms ns 0 k m n h1 h2] at h3
  cases h3
  exact ⟨rfl, rfl, rfl, rfl, by simp⟩

theorem sum_append : ∀ (a b : List Nat), sum (a ++ b) = sum a + sum b
  | [], _ => by simp [sum]
  | x :: a, b => by simp [sum, sum_append a b, Nat.add_assoc]

theorem bytes_get : ∀ (ms : List Member) (ns : List Nat) (k : Nat) (m : Member) (n : Nat), ms[k]? = some m → ns[k]? = some n →
    (bytes ms ns)[k]? = some (n * m.count)
  | x :: ms, y :: ns, 0, m, n, h1, h2 => by
    simp at h1 h2
    subst h1 h2
    simp [bytes]
  | x :: ms, y :: ns, k + 1, m, n, h1, h2 => by
    simp only [List.getElem?_cons_succ] at h1 h2
    simp only [bytes, List.getElem?_cons_succ, bytes_get ms ns k m n h1 h2]

theorem sum_take_succ (l : List Nat) (k b : Nat) (h : l[k]? = some b) : sum (l.take (k + 1)) = sum (l.take k) + b := by
  rw [List.take_add_one, h, sum_append]
  simp [sum]

theorem sum_take_le (l : List Nat) : ∀ (j k : Nat), j ≤ k → sum (l.take j) ≤ sum (l.take k) := by
  intro j k h
  have : l.take k = l.take j ++ (l.take k).drop j := by
    conv => lhs; rw [← List.take_append_drop j (l.take k)]
    rw [List.take_take, Nat.min_eq_left h]
  rw [this, sum_append]
  omega

theorem sum_take_all (l : List Nat) (k : Nat) : sum (l.take k) ≤ sum l := by
  conv => rhs; rw [← List.take_append_drop k l]
  rw [sum_append]
  omega

theorem members_no_type (reg : Registry) (name : Text) (e : Elems) : ∀ (children : List (Text × Child)) (acc : List Entry) (total : Nat),
    (name, Child.node none e) ∈ children → members reg children acc total = none
  | (x, .leaf) :: l, acc, total, h => by
    rw [members]
    exact members_no_type reg name e l acc total (by simpa using h)
  | (x, .node type elems) :: l, acc, total, h => by
    cases type with
    | none => simp only [members]
    | some t =>
      cases hd : dimensions elems with
      | none => simp only [members, hd]
      | some dims =>
        simp only [members, hd]
        exact members_no_type reg name e l _ _ (by simpa using h)

end Verif.StructDecl
