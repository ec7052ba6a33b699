import Verif.Model.BinaryTree
import Verif.Props.UnorderedMap
namespace Verif.BTree
open Verif.UMap (Op Out)
open Verif.Spec.UMap
variable {K V : Type} [DecidableEq K]

/-- Strictly increasing. -/
def Asc (keys : List Nat) : Prop := keys.Pairwise (· < ·)

theorem searchLoop_spec (keys : List Nat) (key : Nat) (hs : Asc keys) (hlen : keys.length < 2 ^ 31) (f lo r1 : Nat)
    (hf : r1 < f) (hle : lo + r1 ≤ keys.length) (hlo : ∀ i (h : i < keys.length), i < lo → keys[i] < key)
    (hhi : ∀ i (h : i < keys.length), lo + r1 ≤ i → key < keys[i]) :
    ∃ b i, searchLoop keys key f (lo + r1 / 2) (r1 / 2) r1 = some (b, i) ∧
      (if b then keys[i]? = some key
       else i ≤ keys.length ∧ (∀ x ∈ keys.take i, x < key) ∧ ∀ x ∈ keys.drop i, key < x) := by
  induction f generalizing lo r1 with
  | zero => omega
  | succ f ih =>
    unfold searchLoop
    by_cases h0 : r1 > 0
    · rw [if_pos h0]
      have hidx : lo + r1 / 2 < keys.length := by omega
      have hat : at' keys (lo + r1 / 2) = some keys[lo + r1 / 2] := by
        unfold at'; rw [if_neg (by omega)]; exact List.getElem?_eq_getElem hidx
      rw [hat]
      simp only [Option.bind_some]
      have hasc := List.pairwise_iff_getElem.mp hs
      by_cases he : key = keys[lo + r1 / 2]
      · rw [if_pos he]
        exact ⟨true, _, rfl, by simp only [if_true]; rw [List.getElem?_eq_getElem hidx, he]⟩
      · rw [if_neg he]
        by_cases hlt : key < keys[lo + r1 / 2]
        · rw [if_pos hlt]
          have e : sub32 (if r1 / 2 % 2 = 1 then sub32 (lo + r1 / 2) 1 else lo + r1 / 2) (r1 / 2 / 2) =
              lo + r1 / 2 / 2 := by
            unfold sub32
            split <;> omega
          simp only [e]
          refine ih lo (r1 / 2) (by omega) (by omega) hlo ?_
          intro i hi hge
          rcases Nat.lt_or_ge (lo + r1 / 2) i with h | h
          · have := hasc (lo + r1 / 2) i hidx hi h; omega
          · have : i = lo + r1 / 2 := by omega
            subst this; exact hlt
        · rw [if_neg hlt]
          have e1 : (if r1 % 2 = 0 then sub32 (r1 / 2) 1 else r1 / 2) = r1 - r1 / 2 - 1 := by
            unfold sub32; split <;> omega
          simp only [e1]
          have e2 : add32 (lo + r1 / 2) (add32 ((r1 - r1 / 2 - 1) / 2) 1) = (lo + r1 / 2 + 1) + (r1 - r1 / 2 - 1) / 2 := by
            unfold add32; omega
          rw [e2]
          refine ih (lo + r1 / 2 + 1) (r1 - r1 / 2 - 1) (by omega) (by omega) ?_ ?_
          · intro i hi hil
            rcases Nat.lt_or_ge i (lo + r1 / 2) with h | h
            · have := hasc i (lo + r1 / 2) hi hidx h; omega
            · have : i = lo + r1 / 2 := by omega
              subst this; omega
          · intro i hi hge; exact hhi i hi (by omega)
    · rw [if_neg h0]
      have : r1 = 0 := by omega
      subst this
      refine ⟨false, _, rfl, ?_⟩
      simp only [Bool.false_eq_true, if_false]
      refine ⟨by omega, ?_, ?_⟩
      · intro x hx
        obtain ⟨i, hi, rfl⟩ := List.getElem_of_mem hx
        simp only [List.length_take] at hi
        rw [List.getElem_take]; exact hlo i (by omega) (by omega)
      · intro x hx
        obtain ⟨i, hi, rfl⟩ := List.getElem_of_mem hx
        simp only [List.length_drop] at hi
        rw [List.getElem_drop]; exact hhi _ (by omega) (by omega)

/-- Representation of an ideal map: the pairs (hash, value) sorted by hash. -/
structure Rep (hash : K → Nat) (S : List K) (t : Tree V) (a : List (K × V)) : Prop where
  len : t.keys.length = t.vals.length
  asc : Asc t.keys
  perm : (t.keys.zip t.vals).Perm (a.map (fun e => (hash e.1, e.2)))
  nodup : (a.map (·.1)).Nodup
  sub : ∀ e ∈ a, e.1 ∈ S

omit [DecidableEq K] in
theorem Rep.size {hash : K → Nat} {S} {t : Tree V} {a} (r : Rep hash S t a) : t.vals.length = a.length := by
  have h1 := r.perm.length_eq
  have h2 := r.len
  simp [List.length_zip] at h1
  omega

/-- A key found in the table is the key of the ideal map. -/
theorem lookup_of_mem {hash : K → Nat} {S} {t : Tree V} {a} (r : Rep hash S t a)
    (hinj : ∀ k1 ∈ S, ∀ k2 ∈ S, hash k1 = hash k2 → k1 = k2) (k : K) (hk : k ∈ S) (v : V)
    (h : (hash k, v) ∈ t.keys.zip t.vals) : lookup a k = some v ∧ (k, v) ∈ a := by
  obtain ⟨x, hx, hxe⟩ := List.mem_map.mp (r.perm.mem_iff.mp h)
  simp only [Prod.mk.injEq] at hxe
  have hxk : x.1 = k := hinj _ (r.sub x hx) _ hk hxe.1
  have hxx : x = (k, v) := by rw [← hxk, ← hxe.2]
  subst hxx
  refine ⟨?_, hx⟩
  have hex : (a.find? (fun e => decide (e.1 = k))).isSome := by
    rw [List.find?_isSome]; exact ⟨_, hx, by simp⟩
  obtain ⟨y, hy⟩ := Option.isSome_iff_exists.mp hex
  have hym : y ∈ a := List.mem_of_find?_eq_some hy
  have hyk : y.1 = k := by simpa using List.find?_some hy
  have hyx : y = (k, v) := by
    have h1 := List.pairwise_iff_getElem.mp r.nodup
    obtain ⟨i, hi, rfl⟩ := List.getElem_of_mem hym
    obtain ⟨j, hj, hjx⟩ := List.getElem_of_mem hx
    have : i = j := by
      rcases Nat.lt_trichotomy i j with h | h | h
      · exact absurd (by rw [List.getElem_map, List.getElem_map, hyk, hjx])
          (h1 i j (by simpa using hi) (by simpa using hj) h)
      · exact h
      · exact absurd (by rw [List.getElem_map, List.getElem_map, hyk, hjx])
          (h1 j i (by simpa using hj) (by simpa using hi) h)
    subst this; exact hjx
  simp [lookup, hy, hyx]

theorem lookup_none {hash : K → Nat} {S} {t : Tree V} {a} (r : Rep hash S t a) (k : K) (h : hash k ∉ t.keys) :
    lookup a k = none := by
  simp only [lookup, Option.map_eq_none_iff]
  rw [List.find?_eq_none]
  intro e he hek
  simp only [decide_eq_true_eq] at hek
  have := r.perm.mem_iff.mpr (List.mem_map.mpr ⟨e, he, rfl⟩)
  rw [hek] at this
  exact h (List.of_mem_zip this).1

/-- What the search of an identifier yields. -/
theorem search_spec {hash : K → Nat} {S} {t : Tree V} {a} (r : Rep hash S t a)
    (hinj : ∀ k1 ∈ S, ∀ k2 ∈ S, hash k1 = hash k2 → k1 = k2) (hlen : a.length < 2 ^ 31) (f : Nat) (hf : a.length < f)
    (k : K) (hk : k ∈ S) :
    (∃ i v, binarySearch f t (hash k) = some (true, i) ∧ t.keys[i]? = some (hash k) ∧ t.vals[i]? = some v ∧
      lookup a k = some v ∧ (k, v) ∈ a) ∨
    (∃ i, binarySearch f t (hash k) = some (false, i) ∧ i ≤ t.keys.length ∧ lookup a k = none ∧
      (∀ x ∈ t.keys.take i, x < hash k) ∧ ∀ x ∈ t.keys.drop i, hash k < x) := by
  have hsz := r.size
  have hl := r.len
  obtain ⟨b, i, e, hb⟩ := searchLoop_spec t.keys (hash k) r.asc (by omega) f 0 t.keys.length (by omega) (by omega)
    (by omega) (by omega)
  rw [Nat.zero_add, hl] at e
  cases b with
  | true =>
    left
    simp only [if_true] at hb
    have hi : i < t.keys.length := by
      rcases Nat.lt_or_ge i t.keys.length with h | h
      · exact h
      · rw [List.getElem?_eq_none h] at hb; cases hb
    have hv : t.vals[i]? = some (t.vals[i]'(by omega)) := List.getElem?_eq_getElem _
    have hz : (hash k, t.vals[i]'(by omega)) ∈ t.keys.zip t.vals := by
      rw [List.mem_iff_getElem?]
      refine ⟨i, ?_⟩
      rw [List.getElem?_zip_eq_some]
      exact ⟨hb, hv⟩
    obtain ⟨h1, h2⟩ := lookup_of_mem r hinj k hk _ hz
    exact ⟨i, _, e, hb, hv, h1, h2⟩
  | false =>
    right
    simp only [Bool.false_eq_true, if_false] at hb
    refine ⟨i, e, hb.1, lookup_none r k ?_, hb.2⟩
    intro hm
    rw [← List.take_append_drop i t.keys] at hm
    rcases List.mem_append.mp hm with h | h
    · exact absurd (hb.2.1 _ h) (Nat.lt_irrefl _)
    · exact absurd (hb.2.2 _ h) (Nat.lt_irrefl _)

theorem step_spec {hash : K → Nat} {S} {t : Tree V} {a} (r : Rep hash S t a)
    (hinj : ∀ k1 ∈ S, ∀ k2 ∈ S, hash k1 = hash k2 → k1 = k2) (limK limV f : Nat) (hlen : a.length < 2 ^ 31)
    (hf : a.length < f) (hK : a.length < limK) (hV : a.length < limV) (op : Op K V) (hS : ∀ k ∈ keys [op], k ∈ S) :
    ∃ t', step hash f limK limV t op = some ((Spec.UMap.step a op).1, t') ∧ Rep hash S t' (Spec.UMap.step a op).2 := by
  have hsz := r.size
  have hl := r.len
  cases op with
  | insert k v =>
    have hk : k ∈ S := hS k (by simp [keys])
    rcases search_spec r hinj hlen f hf k hk with ⟨i, x, e, hki, hvi, hlk, -⟩ | ⟨i, e, hi, hlk, h1, h2⟩
    · have hi : i < t.vals.length := by
        rcases Nat.lt_or_ge i t.vals.length with h | h
        · exact h
        · rw [List.getElem?_eq_none h] at hvi; cases hvi
      refine ⟨t, ?_, by simp only [Spec.UMap.step, hlk]; exact r⟩
      simp only [step, insert, e, Option.bind_some, if_true, at']
      rw [if_neg (by omega), hvi]
      simp [Spec.UMap.step, hlk]
    · have hin : ∀ {α : Type} (lim : Nat) (l : List α) (y : α), l.length = a.length → a.length < lim →
          listInsert lim l i y = (true, l.take i ++ y :: l.drop i) := by
        intro α lim l y h1 h2
        unfold listInsert; rw [if_pos (by omega)]
      simp only [step, insert, e, Option.bind_some, Bool.false_eq_true, if_false,
        hin limK t.keys (hash k) (by omega) hK, hin limV t.vals v (by omega) hV, if_true]
      have hget : at' (t.vals.take i ++ v :: t.vals.drop i) i = some v := by
        unfold at'
        rw [if_neg (by simp; omega), List.getElem?_append_right (by simp; omega)]
        have : i - (t.vals.take i).length = 0 := by simp; omega
        rw [this]; rfl
      rw [hget]
      refine ⟨_, by simp only [Option.map_some, Spec.UMap.step, hlk]; rfl, ?_⟩
      simp only [Spec.UMap.step, hlk]
      refine ⟨by simp; omega, ?_, ?_, ?_, ?_⟩
      · unfold Asc
        have hasc := r.asc
        unfold Asc at hasc
        rw [← List.take_append_drop i t.keys, List.pairwise_append] at hasc
        simp only
        rw [List.pairwise_append]
        refine ⟨hasc.1, List.pairwise_cons.mpr ⟨h2, hasc.2.1⟩, ?_⟩
        intro x hx y hy
        rcases List.mem_cons.mp hy with rfl | hy
        · exact h1 x hx
        · exact hasc.2.2 x hx y hy
      · simp only [List.map_append, List.map_cons, List.map_nil]
        rw [List.zip_append (by simp; omega), List.zip_cons_cons]
        refine (List.perm_middle).trans ?_
        have hz : (t.keys.take i).zip (t.vals.take i) ++ (t.keys.drop i).zip (t.vals.drop i) = t.keys.zip t.vals := by
          rw [← List.zip_append (by simp; omega), List.take_append_drop, List.take_append_drop]
        rw [hz]
        exact (r.perm.cons _).trans (List.perm_append_singleton _ _).symm
      · simp only [List.map_append, List.map_cons, List.map_nil]
        rw [List.nodup_append]
        refine ⟨r.nodup, by simp, ?_⟩
        rintro x hx y hy rfl
        simp at hy; subst hy
        simp only [lookup, Option.map_eq_none_iff, List.find?_eq_none] at hlk
        obtain ⟨y, hy, rfl⟩ := List.mem_map.mp hx
        exact absurd (decide_eq_true rfl) (hlk y hy)
      · intro e he
        rcases List.mem_append.mp he with h | h
        · exact r.sub e h
        · simp at h; rw [h]; exact hk
  | remove k =>
    have hk : k ∈ S := hS k (by simp [keys])
    rcases search_spec r hinj hlen f hf k hk with ⟨i, x, e, hki, hvi, hlk, hmem⟩ | ⟨i, e, hi, hlk, h1, h2⟩
    · have hi : i < t.vals.length := by
        rcases Nat.lt_or_ge i t.vals.length with h | h
        · exact h
        · rw [List.getElem?_eq_none h] at hvi; cases hvi
      refine ⟨_, by simp only [step, remove, e, Option.bind_some, if_true, Option.map_some, Spec.UMap.step, hlk]; rfl, ?_⟩
      simp only [Spec.UMap.step]
      have hp2 := UMap.filter_perm_of_nodup a k (k, x) hmem rfl r.nodup
      refine ⟨by simp [List.length_eraseIdx, hl], r.asc.sublist (List.eraseIdx_sublist ..), ?_,
        (List.Sublist.map _ List.filter_sublist).nodup r.nodup, fun y hy => r.sub y (List.mem_filter.mp hy).1⟩
      have hi' : i < t.keys.length := by omega
      have hz : (t.keys.zip t.vals).Perm ((hash k, x) :: (t.keys.eraseIdx i).zip (t.vals.eraseIdx i)) := by
        have hk1 : t.keys = t.keys.take i ++ hash k :: t.keys.drop (i + 1) := by
          have h1 : t.keys[i] = hash k := by rw [List.getElem?_eq_getElem hi'] at hki; simpa using hki
          rw [← h1]; simp
        have hv1 : t.vals = t.vals.take i ++ x :: t.vals.drop (i + 1) := by
          have h1 : t.vals[i] = x := by rw [List.getElem?_eq_getElem hi] at hvi; simpa using hvi
          rw [← h1]; simp
        rw [List.eraseIdx_eq_take_drop_succ, List.eraseIdx_eq_take_drop_succ]
        have e1 : t.keys.zip t.vals = (t.keys.take i).zip (t.vals.take i) ++
            (hash k, x) :: (t.keys.drop (i + 1)).zip (t.vals.drop (i + 1)) := by
          rw [← List.zip_cons_cons, ← List.zip_append (by simp; omega), ← hk1, ← hv1]
        rw [e1, List.zip_append (by simp; omega)]
        exact List.perm_middle
      have h3 := (hz.symm.trans r.perm).trans (hp2.map (fun e => (hash e.1, e.2)))
      exact h3.cons_inv
    · refine ⟨t, by simp [step, remove, e, Spec.UMap.step, hlk], ?_⟩
      simp only [Spec.UMap.step]
      simp only [lookup, Option.map_eq_none_iff, List.find?_eq_none] at hlk
      have heq : a.filter (fun e => decide (e.1 ≠ k)) = a := by
        rw [List.filter_eq_self]; intro e he; simpa using hlk e he
      rw [heq]; exact r
  | search k =>
    have hk : k ∈ S := hS k (by simp [keys])
    refine ⟨t, ?_, r⟩
    rcases search_spec r hinj hlen f hf k hk with ⟨i, x, e, hki, hvi, hlk, -⟩ | ⟨i, e, hi, hlk, h1, h2⟩
    · have hi : i < t.vals.length := by
        rcases Nat.lt_or_ge i t.vals.length with h | h
        · exact h
        · rw [List.getElem?_eq_none h] at hvi; cases hvi
      simp only [step, e, Option.bind_some, if_true, at']
      rw [if_neg (by omega), hvi]
      simp [Spec.UMap.step, hlk]
    · simp [step, e, Spec.UMap.step, hlk]
  | reset => exact ⟨_, rfl, rfl, .nil, .refl _, .nil, by simp [Spec.UMap.step]⟩
  | getSize =>
    refine ⟨t, ?_, r⟩
    simp only [step, Spec.UMap.step, hsz]
    rw [Nat.mod_eq_of_lt (by omega)]

/-- **C05.**  For every history of calls on a new tree whose identifiers have pairwise different hashes and that is
shorter than the capacity of the underlying lists: the binary search terminates and never reads outside of the lists,
and the results are those of an ideal map: `Search` finds exactly the identifiers present and the reported index
designates the stored element; `Insert` of a present identifier fails and the index designates the existing element. -/
theorem c05_history (hash : K → Nat) (limK limV f : Nat) (ops : List (Op K V)) (hlen : ops.length < 2 ^ 31)
    (hK : ops.length ≤ limK) (hV : ops.length ≤ limV) (hf : ops.length ≤ f)
    (hinj : ∀ k1 ∈ keys ops, ∀ k2 ∈ keys ops, hash k1 = hash k2 → k1 = k2) :
    ∃ t, run hash f limK limV ⟨[], []⟩ ops = some ((Spec.UMap.run [] ops).1, t) := by
  suffices h : ∀ (ops : List (Op K V)) (S : List K) (t : Tree V) (a : List (K × V)), Rep hash S t a →
      (∀ k1 ∈ S, ∀ k2 ∈ S, hash k1 = hash k2 → k1 = k2) → (∀ k ∈ keys ops, k ∈ S) →
      a.length + ops.length < 2 ^ 31 → a.length + ops.length ≤ limK → a.length + ops.length ≤ limV →
      a.length + ops.length ≤ f → ∃ t', run hash f limK limV t ops = some ((Spec.UMap.run a ops).1, t') by
    exact h ops (keys ops) ⟨[], []⟩ [] ⟨rfl, .nil, .refl _, .nil, by simp⟩ hinj (fun _ h => h) (by simpa using hlen)
      (by simpa using hK) (by simpa using hV) (by simpa using hf)
  intro ops
  induction ops with
  | nil => intro S t a r _ _ _ _ _ _; exact ⟨t, rfl⟩
  | cons op ops ih =>
    intro S t a r hinj hS h1 h2 h3 h4
    simp only [List.length_cons] at h1 h2 h3 h4
    obtain ⟨t1, e1, r1⟩ := step_spec r hinj limK limV f (by omega) (by omega) (by omega) (by omega) op (by
      intro k hk; apply hS; cases op <;> simp_all [keys])
    have hgrow : (Spec.UMap.step a op).2.length ≤ a.length + 1 := by
      cases op with
      | insert k v => simp only [Spec.UMap.step]; split <;> simp
      | remove k => simp only [Spec.UMap.step]; have := List.length_filter_le (fun e => decide (e.1 ≠ k)) a; omega
      | search k => simp [Spec.UMap.step]
      | reset => simp [Spec.UMap.step]
      | getSize => simp [Spec.UMap.step]
    obtain ⟨t2, e2⟩ := ih S t1 _ r1 hinj (by intro k hk; apply hS; cases op <;> simp_all [keys]) (by omega) (by omega)
      (by omega) (by omega)
    exact ⟨t2, by simp [run, Spec.UMap.run, e1, e2]⟩

/-- **C05.**  When the list of keys cannot grow, `Insert` of a new identifier fails and leaves the tree as it
was. -/
theorem c05_full_insert_changes_nothing (f limK limV : Nat) (t : Tree V) (key i : Nat) (v : V)
    (hfull : limK ≤ t.keys.length) (hnew : binarySearch f t key = some (false, i)) :
    insert f limK limV t key v = some (false, i, t) := by
  have h1 : ¬ (i ≤ t.keys.length ∧ t.keys.length < limK) := by omega
  simp only [insert, hnew, Option.bind_some, Bool.false_eq_true, if_false, listInsert, if_neg h1]

/-- The claim fails when the list of values is full and that of keys is not (elements larger than a key have a
smaller maximum number): `Insert` reports a failure but the key stays in the tree without a value. -/
theorem c05_full_values_leave_orphan_key (f limK limV : Nat) (t : Tree V) (key i : Nat) (v : V)
    (hl : t.keys.length = t.vals.length) (hi : i ≤ t.keys.length) (hK : t.keys.length < limK)
    (hfull : limV ≤ t.vals.length) (hnew : binarySearch f t key = some (false, i)) :
    ∃ t', insert f limK limV t key v = some (false, i, t') ∧ t'.vals = t.vals ∧
      t'.keys.length = t.keys.length + 1 := by
  have h1 : i ≤ t.keys.length ∧ t.keys.length < limK := ⟨hi, hK⟩
  have h2 : ¬ (i ≤ t.vals.length ∧ t.vals.length < limV) := by omega
  refine ⟨⟨t.keys.take i ++ key :: t.keys.drop i, t.vals⟩, ?_, rfl, by simp; omega⟩
  simp only [insert, hnew, Option.bind_some, Bool.false_eq_true, if_false, listInsert, if_pos h1,
    if_neg h2, if_true]

example : binarySearch 9 (⟨[3, 5], [30, 50]⟩ : Tree Nat) 4 = some (false, 1) := by decide

example : (run (K := Nat) (V := Nat) id 50 50 50 ⟨[], []⟩ [.insert 7 70, .insert 3 30, .insert 5 50, .insert 3 31,
    .search 7, .search 4, .remove 5, .search 5, .getSize]).map (·.1) =
    some [.inserted true 70, .inserted true 30, .inserted true 50, .inserted false 30, .found (some 70), .found none,
      .flag true, .found none, .size 2] := by decide

end Verif.BTree
