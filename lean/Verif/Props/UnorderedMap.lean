import Verif.Model.UnorderedMap

/-! ## Specification: an association list with at most one entry per key -/
namespace Verif.Spec.UMap
open Verif.UMap (Op Out)
variable {K V : Type} [DecidableEq K]

def lookup (m : List (K × V)) (k : K) : Option V := (m.find? (fun e => e.1 = k)).map (·.2)

/-- Results and effect of each call on the ideal map. -/
def step (m : List (K × V)) : Op K V → Out V × List (K × V)
  | .insert k v =>
    match lookup m k with
    | some old => (.inserted false old, m)
    | none => (.inserted true v, m ++ [(k, v)])
  | .remove k => (.flag (lookup m k).isSome, m.filter (fun e => e.1 ≠ k))
  | .search k => (.found (lookup m k), m)
  | .reset => (.unit, [])
  | .getSize => (.size (m.length % 2 ^ 32), m)

def run (m : List (K × V)) : List (Op K V) → List (Out V) × List (K × V)
  | [] => ([], m)
  | op :: ops => let r := step m op; let q := run r.2 ops; (r.1 :: q.1, q.2)

/-- The identifiers used by a history. -/
def keys : List (Op K V) → List K
  | [] => []
  | .insert k _ :: ops | .remove k :: ops | .search k :: ops => k :: keys ops
  | _ :: ops => keys ops

end Verif.Spec.UMap

namespace Verif.UMap
open Verif.Spec.UMap
variable {K V : Type} [DecidableEq K]

/-- Every entry is in the bucket of its hash. -/
def Placed (bs : List (List (Nat × V))) (n : Nat) : Prop := ∀ i b, bs[i]? = some b → ∀ e ∈ b, e.1 % n = i

theorem addAt_length (i : Nat) (e : Nat × V) (bs) : (addAt i e bs).length = bs.length := by
  induction bs generalizing i with
  | nil => simp [addAt]
  | cons b bs ih => cases i <;> simp [addAt, ih]

theorem addAt_perm (i : Nat) (e : Nat × V) (bs) (hi : i < bs.length) :
    (addAt i e bs).flatten.Perm (e :: bs.flatten) := by
  induction bs generalizing i with
  | nil => simp at hi
  | cons b bs ih =>
    cases i with
    | zero =>
      simp only [addAt, List.flatten_cons, List.append_assoc, List.singleton_append]
      exact List.perm_middle
    | succ i =>
      simp only [addAt, List.flatten_cons]
      exact ((ih i (by simpa using hi)).append_left b).trans List.perm_middle

theorem addAt_get (i : Nat) (e : Nat × V) (bs) (j : Nat) :
    (addAt i e bs)[j]? = if j = i then bs[j]?.map (· ++ [e]) else bs[j]? := by
  induction bs generalizing i j with
  | nil => simp [addAt]
  | cons b bs ih =>
    cases i with
    | zero => cases j <;> simp [addAt]
    | succ i =>
      cases j with
      | zero => simp [addAt]
      | succ j => simp [addAt, ih]

theorem placed_addAt (i : Nat) (e : Nat × V) (bs) (n : Nat) (hp : Placed bs n) (he : e.1 % n = i) :
    Placed (addAt i e bs) n := by
  intro j b hb x hx
  rw [addAt_get] at hb
  split at hb
  · rename_i hji
    cases hbj : bs[j]? with
    | none => rw [hbj] at hb; simp at hb
    | some b0 =>
      rw [hbj] at hb; simp at hb; subst hb
      rcases List.mem_append.mp hx with h | h
      · exact hp j b0 hbj x h
      · simp at h; rw [h, he, hji]
  · exact hp j b hb x hx

/-- Rehashing a list of entries. -/
theorem rehash (n : Nat) (hn : 0 < n) (old : List (Nat × V)) (bs) (hl : bs.length = n) (hp : Placed bs n) :
    let r := old.foldl (fun bs e => addAt (e.1 % n) e bs) bs
    r.length = n ∧ Placed r n ∧ r.flatten.Perm (old ++ bs.flatten) := by
  induction old generalizing bs with
  | nil => exact ⟨hl, hp, .refl _⟩
  | cons e old ih =>
    have h := ih (addAt (e.1 % n) e bs) (by rw [addAt_length]; exact hl) (placed_addAt _ _ _ _ hp rfl)
    refine ⟨h.1, h.2.1, h.2.2.trans ?_⟩
    have h2 := addAt_perm (e.1 % n) e bs (by rw [hl]; exact Nat.mod_lt _ hn)
    exact (h2.append_left old).trans List.perm_middle

/-- Representation of an ideal map. -/
structure Rep (hash : K → Nat) (S : List K) (m : UMap V) (a : List (K × V)) : Prop where
  len : m.buckets.length < 2 ^ 32
  placed : Placed m.buckets m.buckets.length
  perm : m.buckets.flatten.Perm (a.map (fun e => (hash e.1, e.2)))
  size : m.size = a.length % 2 ^ 32
  nodup : (a.map (·.1)).Nodup
  sub : ∀ e ∈ a, e.1 ∈ S

theorem placed_replicate (n k : Nat) : Placed (List.replicate n ([] : List (Nat × V))) k := by
  intro i b hb e he
  rw [List.getElem?_replicate] at hb
  split at hb <;> simp at hb
  subst hb; simp at he

theorem flatten_replicate (n : Nat) : (List.replicate n ([] : List (Nat × V))).flatten = [] := by
  induction n with
  | zero => rfl
  | succ n ih => simp [List.replicate_succ, ih]

theorem grow_spec {hash : K → Nat} {S} {m : UMap V} {a} (r : Rep hash S m a) (init lf : Nat) (hi : 0 < init)
    (hi2 : init < 2 ^ 32) (hlf : 1 ≤ lf) :
    ∃ m', grow init lf m = some m' ∧ Rep hash S m' a ∧ 0 < m'.buckets.length := by
  unfold grow
  by_cases h0 : m.buckets.length = 0
  · rw [if_pos h0]
    have hb : m.buckets = [] := List.eq_nil_of_length_eq_zero h0
    have hperm := r.perm
    rw [hb] at hperm
    refine ⟨_, rfl, ⟨by simpa using hi2, placed_replicate _ _, by rw [flatten_replicate]; exact hperm, r.size,
      r.nodup, r.sub⟩, by simpa using hi⟩
  · rw [if_neg h0]
    by_cases hg : m.size * 100 % 2 ^ 32 / m.buckets.length > lf
    · rw [if_pos hg]
      have h1 : m.size * 100 % 2 ^ 32 < 2 ^ 32 := Nat.mod_lt _ (by decide)
      have h2 : 2 ≤ m.size * 100 % 2 ^ 32 / m.buckets.length := by omega
      have h3 := (Nat.le_div_iff_mul_le (by omega)).mp h2
      have hmod : m.buckets.length * 2 % 2 ^ 32 = m.buckets.length * 2 := Nat.mod_eq_of_lt (by omega)
      unfold resize
      simp only [hmod]
      rw [if_neg (by omega)]
      obtain ⟨q1, q2, q3⟩ := rehash (m.buckets.length * 2) (by omega) m.buckets.flatten
        (List.replicate (m.buckets.length * 2) []) (by simp) (placed_replicate _ _)
      rw [flatten_replicate, List.append_nil] at q3
      refine ⟨_, rfl, ⟨by simp only [q1]; omega, by simp only [q1]; exact q2, q3.trans r.perm, ?_, r.nodup, r.sub⟩,
        by simp only [q1]; omega⟩
      simp only
      rw [r.perm.length_eq, List.length_map]
    · rw [if_neg hg]; exact ⟨m, rfl, r, by omega⟩

/-- What the bucket of a key contains. -/
theorem find_spec {hash : K → Nat} {S} {m : UMap V} {a} (r : Rep hash S m a)
    (hinj : ∀ k1 ∈ S, ∀ k2 ∈ S, hash k1 = hash k2 → k1 = k2) (hpos : 0 < m.buckets.length) (k : K) (hk : k ∈ S) :
    ∃ b, m.buckets[hash k % m.buckets.length]? = some b ∧ (findHash (hash k) b).map (·.2) = lookup a k ∧
      ∀ x, x ∈ m.buckets.flatten → x.1 = hash k → x ∈ b := by
  have hlt : hash k % m.buckets.length < m.buckets.length := Nat.mod_lt _ hpos
  refine ⟨_, List.getElem?_eq_getElem hlt, ?_, ?_⟩
  · cases hf : findHash (hash k) m.buckets[hash k % m.buckets.length] with
    | none =>
      symm
      simp only [lookup, Option.map_none, Option.map_eq_none_iff]
      rw [List.find?_eq_none]
      intro e he hek
      simp only [decide_eq_true_eq] at hek
      have hin : (hash e.1, e.2) ∈ m.buckets.flatten := r.perm.mem_iff.mpr (List.mem_map.mpr ⟨e, he, rfl⟩)
      obtain ⟨b, hb, hxb⟩ := List.mem_flatten.mp hin
      obtain ⟨i, hi, hib⟩ := List.getElem_of_mem hb
      have := r.placed i b (by rw [List.getElem?_eq_getElem hi, hib]) _ hxb
      simp only [hek] at this hxb
      subst this
      rw [hib] at hf
      have := List.find?_eq_none.mp hf _ hxb
      simp at this
    | some e =>
      have hmem : e ∈ m.buckets[hash k % m.buckets.length] := List.mem_of_find?_eq_some hf
      have hh : e.1 = hash k := by simpa using List.find?_some hf
      have hin : e ∈ m.buckets.flatten := List.mem_flatten.mpr ⟨_, List.getElem_mem hlt, hmem⟩
      obtain ⟨x, hx, hxe⟩ := List.mem_map.mp (r.perm.mem_iff.mp hin)
      have hxk : x.1 = k := by
        apply hinj _ (r.sub x hx) _ hk
        rw [← hh, ← hxe]
      have hfind : a.find? (fun e => decide (e.1 = k)) = some x := by
        have hex : (a.find? (fun e => decide (e.1 = k))).isSome := by
          rw [List.find?_isSome]; exact ⟨x, hx, by simp [hxk]⟩
        obtain ⟨y, hy⟩ := Option.isSome_iff_exists.mp hex
        have hym : y ∈ a := List.mem_of_find?_eq_some hy
        have hyk : y.1 = k := by simpa using List.find?_some hy
        have : y = x := by
          have hnd := r.nodup
          obtain ⟨i, hi, rfl⟩ := List.getElem_of_mem hym
          obtain ⟨j, hj, rfl⟩ := List.getElem_of_mem hx
          have : i = j := by
            have h1 := (List.pairwise_iff_getElem.mp hnd)
            rcases Nat.lt_trichotomy i j with h | h | h
            · exact absurd (by rw [List.getElem_map, List.getElem_map, hyk, hxk]) (h1 i j (by simpa using hi) (by simpa using hj) h)
            · exact h
            · exact absurd (by rw [List.getElem_map, List.getElem_map, hyk, hxk]) (h1 j i (by simpa using hj) (by simpa using hi) h)
          subst this; rfl
        rw [hy, this]
      simp only [lookup, hfind, Option.map_some]
      rw [← hxe]
  · intro x hx hxh
    obtain ⟨b, hb, hxb⟩ := List.mem_flatten.mp hx
    obtain ⟨i, hi, hib⟩ := List.getElem_of_mem hb
    have := r.placed i b (by rw [List.getElem?_eq_getElem hi, hib]) _ hxb
    rw [hxh] at this
    subst this
    rw [hib]; exact hxb

theorem set_perm (bs : List (List (Nat × V))) (i : Nat) (b b' : List (Nat × V)) (e : Nat × V) (h : bs[i]? = some b)
    (hb : b.Perm (e :: b')) : bs.flatten.Perm (e :: (bs.set i b').flatten) := by
  induction bs generalizing i with
  | nil => simp at h
  | cons c bs ih =>
    cases i with
    | zero =>
      simp at h; subst h
      simp only [List.set_cons_zero, List.flatten_cons]
      exact hb.append_right _
    | succ i =>
      simp only [List.set_cons_succ, List.flatten_cons]
      exact ((ih i (by simpa using h)).append_left c).trans List.perm_middle

theorem eraseP_perm {p : Nat × V → Bool} {b : List (Nat × V)} {e} (h : b.find? p = some e) :
    b.Perm (e :: b.eraseP p) := by
  induction b with
  | nil => simp at h
  | cons x b ih =>
    by_cases hx : p x
    · rw [List.find?_cons_of_pos hx] at h; cases h
      rw [List.eraseP_cons_of_pos hx]
    · rw [List.find?_cons_of_neg hx] at h
      rw [List.eraseP_cons_of_neg hx]
      exact ((ih h).cons x).trans (.swap ..)

theorem filter_perm_of_nodup (a : List (K × V)) (k : K) (x : K × V) (hx : x ∈ a) (hk : x.1 = k)
    (hnd : (a.map (·.1)).Nodup) : a.Perm (x :: a.filter (fun e => decide (e.1 ≠ k))) := by
  induction a with
  | nil => simp at hx
  | cons y a ih =>
    rw [List.map_cons, List.nodup_cons] at hnd
    rcases List.mem_cons.mp hx with rfl | hx
    · rw [List.filter_cons_of_neg (by simp [hk])]
      refine List.Perm.cons _ ?_
      rw [List.filter_eq_self.mpr]
      intro e he
      simp only [ne_eq, decide_eq_true_eq]
      intro hek; exact hnd.1 (List.mem_map.mpr ⟨e, he, by rw [hek, hk]⟩)
    · have hyk : y.1 ≠ k := by
        intro h; exact hnd.1 (List.mem_map.mpr ⟨x, hx, by rw [hk, h]⟩)
      rw [List.filter_cons_of_pos (by simp [hyk])]
      exact ((ih hx hnd.2).cons y).trans (.swap ..)

theorem step_spec {hash : K → Nat} {S} {m : UMap V} {a} (r : Rep hash S m a)
    (hinj : ∀ k1 ∈ S, ∀ k2 ∈ S, hash k1 = hash k2 → k1 = k2) (init lf : Nat) (hi : 0 < init) (hi2 : init < 2 ^ 32)
    (hlf : 1 ≤ lf) (op : Op K V) (hS : ∀ k ∈ keys [op], k ∈ S) :
    ∃ m', step hash init lf m op = some ((Spec.UMap.step a op).1, m') ∧ Rep hash S m' (Spec.UMap.step a op).2 := by
  cases op with
  | insert k v =>
    have hk : k ∈ S := hS k (by simp [keys])
    obtain ⟨m1, e1, r1, hpos⟩ := grow_spec r init lf hi hi2 hlf
    obtain ⟨b, hb, hf, hin⟩ := find_spec r1 hinj hpos k hk
    simp only [step, insert, e1, Option.bind_some]
    rw [if_neg (by omega), hb]
    simp only [Option.bind_some, Spec.UMap.step]
    rw [← hf]
    cases hfe : findHash (hash k) b with
    | some e => exact ⟨m1, rfl, r1⟩
    | none =>
      refine ⟨_, rfl, ?_⟩
      have hlt : hash k % m1.buckets.length < m1.buckets.length := Nat.mod_lt _ hpos
      refine ⟨by simp only [addAt_length]; exact r1.len,
        by simp only [addAt_length]; exact placed_addAt _ _ _ _ r1.placed rfl, ?_, ?_, ?_, ?_⟩
      · refine (addAt_perm _ _ _ hlt).trans ?_
        simp only [Option.map_none, List.map_append, List.map_cons, List.map_nil]
        exact (r1.perm.cons _).trans (List.perm_append_singleton _ _).symm
      · simp only [Option.map_none, r1.size, List.length_append, List.length_singleton]; omega
      · simp only [Option.map_none, List.map_append, List.map_cons, List.map_nil]
        rw [List.nodup_append]
        refine ⟨r1.nodup, by simp, ?_⟩
        rintro x hx y hy rfl
        simp at hy; subst hy
        have : lookup a x = none := by rw [← hf, hfe]; rfl
        simp only [lookup, Option.map_eq_none_iff, List.find?_eq_none] at this
        obtain ⟨e, he, rfl⟩ := List.mem_map.mp hx
        exact absurd (decide_eq_true rfl) (this e he)
      · simp only [Option.map_none]
        intro e he
        rcases List.mem_append.mp he with h | h
        · exact r1.sub e h
        · simp at h; rw [h]; exact hk
  | remove k =>
    have hk : k ∈ S := hS k (by simp [keys])
    simp only [step, remove]
    by_cases h0 : m.buckets.length = 0
    · rw [if_pos h0]
      have hb : m.buckets = [] := List.eq_nil_of_length_eq_zero h0
      have hperm := r.perm
      rw [hb] at hperm
      have ha : a = [] := by
        have := hperm.length_eq; simp at this
        exact List.eq_nil_of_length_eq_zero this.symm
      subst ha
      exact ⟨m, rfl, r⟩
    · rw [if_neg h0]
      obtain ⟨b, hb, hf, hin⟩ := find_spec r hinj (by omega) k hk
      rw [hb]
      simp only [Option.bind_some, Spec.UMap.step]
      rw [← hf]
      cases hfe : findHash (hash k) b with
      | none =>
        refine ⟨m, rfl, ?_⟩
        have : lookup a k = none := by rw [← hf, hfe]; rfl
        simp only [lookup, Option.map_eq_none_iff, List.find?_eq_none] at this
        have heq : a.filter (fun e => decide (e.1 ≠ k)) = a := by
          rw [List.filter_eq_self]; intro e he; simpa using this e he
        rw [heq]; exact r
      | some e =>
        refine ⟨_, rfl, ?_⟩
        have heh : e.1 = hash k := by simpa using List.find?_some hfe
        have hemem : e ∈ m.buckets.flatten :=
          List.mem_flatten.mpr ⟨b, List.mem_of_getElem? hb, List.mem_of_find?_eq_some hfe⟩
        obtain ⟨x, hx, hxe⟩ := List.mem_map.mp (r.perm.mem_iff.mp hemem)
        have hxk : x.1 = k := hinj _ (r.sub x hx) _ hk (by rw [← heh, ← hxe])
        have hp1 := set_perm m.buckets _ b _ e hb (eraseP_perm hfe)
        have hp2 := filter_perm_of_nodup a k x hx hxk r.nodup
        have hlen := hp2.length_eq
        simp only [List.length_cons] at hlen
        refine ⟨by simpa using r.len, ?_, ?_, ?_, ?_, ?_⟩
        · intro j c hc y hy
          simp only [List.length_set] at hc ⊢
          rw [List.getElem?_set] at hc
          split at hc
          · rename_i hji
            split at hc
            · cases hc
              exact r.placed j b (by rw [← hji]; exact hb) y (List.mem_of_mem_eraseP hy)
            · simp at hc
          · exact r.placed j c hc y hy
        · have h3 := (hp1.symm.trans r.perm).trans (hp2.map (fun e => (hash e.1, e.2)))
          simp only [List.map_cons, hxe] at h3
          exact h3.cons_inv
        · simp only [r.size]; omega
        · exact (List.Sublist.map _ List.filter_sublist).nodup r.nodup
        · intro y hy; exact r.sub y (List.mem_filter.mp hy).1
  | search k =>
    have hk : k ∈ S := hS k (by simp [keys])
    simp only [step, search]
    by_cases h0 : m.buckets.length = 0
    · rw [if_pos h0]
      have hb : m.buckets = [] := List.eq_nil_of_length_eq_zero h0
      have hperm := r.perm
      rw [hb] at hperm
      have ha : a = [] := by
        have := hperm.length_eq; simp at this
        exact List.eq_nil_of_length_eq_zero this.symm
      subst ha
      exact ⟨m, rfl, r⟩
    · rw [if_neg h0]
      obtain ⟨b, hb, hf, hin⟩ := find_spec r hinj (by omega) k hk
      rw [hb]
      simp only [Option.bind_some, Option.map_some, hf]
      exact ⟨m, rfl, r⟩
  | reset =>
    refine ⟨_, rfl, by simpa [reset] using r.len, placed_replicate _ _, ?_, rfl, .nil, by simp [Spec.UMap.step]⟩
    simp only [reset, flatten_replicate, Spec.UMap.step]; exact .refl _
  | getSize => exact ⟨m, by simp [step, Spec.UMap.step, r.size], r⟩

/-- **C04.**  For every history of `Insert`, `Remove`, `Search`, `Reset` and `GetSize` calls on a new map whose
identifiers have pairwise different hashes, for every initial capacity and load factor: no call divides by zero or
leaves the table, and all results are those of an ideal map (`Search` finds the value first stored, growth is
invisible). -/
theorem c04_history (hash : K → Nat) (init lf : Nat) (hi : 0 < init) (hi2 : init < 2 ^ 32) (hlf : 1 ≤ lf)
    (ops : List (Op K V))
    (hinj : ∀ k1 ∈ keys ops, ∀ k2 ∈ keys ops, hash k1 = hash k2 → k1 = k2) :
    ∃ m, run hash init lf empty ops = some ((Spec.UMap.run [] ops).1, m) := by
  suffices h : ∀ (ops : List (Op K V)) (S : List K) (m : UMap V) (a : List (K × V)), Rep hash S m a →
      (∀ k1 ∈ S, ∀ k2 ∈ S, hash k1 = hash k2 → k1 = k2) → (∀ k ∈ keys ops, k ∈ S) →
      ∃ m', run hash init lf m ops = some ((Spec.UMap.run a ops).1, m') by
    refine h ops (keys ops) empty [] ⟨by simp [empty], ?_, .refl _, rfl, .nil, by simp⟩ hinj (fun _ h => h)
    intro i b hb; simp [empty] at hb
  intro ops
  induction ops with
  | nil => intro S m a r _ _; exact ⟨m, rfl⟩
  | cons op ops ih =>
    intro S m a r hinj hS
    have h1 : ∀ k ∈ keys [op], k ∈ S := by
      intro k hk
      apply hS
      cases op <;> simp_all [keys]
    have h2 : ∀ k ∈ keys ops, k ∈ S := by
      intro k hk
      apply hS
      cases op <;> simp_all [keys]
    obtain ⟨m1, e1, r1⟩ := step_spec r hinj init lf hi hi2 hlf op h1
    obtain ⟨m2, e2⟩ := ih S m1 _ r1 hinj h2
    exact ⟨m2, by simp [run, Spec.UMap.run, e1, e2]⟩

/-- Two identifiers in the same bucket, growth from capacity 1, removal and re-insertion. -/
example : (run (K := Nat) (V := Nat) id 1 75 empty [.insert 1 10, .insert 3 30, .insert 1 11, .insert 5 50, .search 3,
    .remove 1, .insert 1 12, .search 1, .getSize]).map (·.1) =
    some [.inserted true 10, .inserted true 30, .inserted false 10, .inserted true 50, .found (some 30), .flag true,
      .inserted true 12, .found (some 12), .size 3] := by decide

end Verif.UMap
