import Verif.Model.StaticList

/-! ## Specification: a bounded list -/
namespace Verif.Spec.StaticList
open Verif.StaticList (Op Out)

/-- `Ideal limit xs op out xs'`: on an ideal list `xs` bounded by `limit` elements the call `op` may return
`out` and leave `xs'`.  A call that needs memory may fail when the allocation is refused; any failing call
leaves the list as it was. -/
def Ideal (limit : Nat) (xs : List (List UInt8)) (op : Op) (out : Out) (xs' : List (List UInt8)) : Prop :=
  match op with
  | .add v alloc =>
    (if out.ok then xs' = xs ++ [v] ∧ xs.length < limit else xs' = xs) ∧
    (alloc = true → xs.length < limit → out.ok = true)
  | .insert p v alloc =>
    (if out.ok then xs' = xs.take p ++ v :: xs.drop p ∧ p ≤ xs.length ∧ xs.length < limit else xs' = xs) ∧
    (alloc = true → xs.length < limit → p ≤ xs.length → out.ok = true)
  | .set p v => if p < xs.length then out.ok = true ∧ xs' = xs.set p v else out.ok = false ∧ xs' = xs
  | .remove p => if p < xs.length then out.ok = true ∧ xs' = xs.eraseIdx p else out.ok = false ∧ xs' = xs
  | .extract p =>
    (out.ok = true ↔ p < xs.length) ∧ out.value = xs[p]? ∧ xs' = xs.eraseIdx p
  | .peek p => (out.ok = true ↔ p < xs.length) ∧ out.value = xs[p]? ∧ xs' = xs
  | .clean => out.ok = true ∧ xs' = []

/-- An ideal history. -/
inductive IdealRun (limit : Nat) : List (List UInt8) → List Op → List Out → List (List UInt8) → Prop
  | nil (xs) : IdealRun limit xs [] [] xs
  | cons {xs op o xs' ops os xs''} (h : Ideal limit xs op o xs') (t : IdealRun limit xs' ops os xs'') :
      IdealRun limit xs (op :: ops) (o :: os) xs''

/-- The elements passed to the calls have the element size. -/
def OpOk (es : Nat) : Op → Prop
  | .add v _ => v.length = es
  | .insert _ v _ => v.length = es
  | .set _ v => v.length = es
  | _ => True

end Verif.Spec.StaticList

namespace Verif.StaticList
open Verif.Spec.StaticList

/-- Representation invariant. -/
structure Inv (es gran maxCap : Nat) (h : Holder) (xs : List (List UInt8)) : Prop where
  hes : h.es = es
  hgran : h.gran = gran
  hmax : h.maxCap = maxCap
  es_pos : 1 ≤ es
  gran_pos : 1 ≤ gran
  bytes : maxCap * es < 2 ^ 32
  dvd_max : gran ∣ maxCap
  dvd_cap : gran ∣ h.cap
  cap_le : h.cap ≤ maxCap
  size : h.size = xs.length
  size_le : xs.length ≤ h.cap
  elems : ∀ x ∈ xs, x.length = es
  mem : ∃ junk, h.mem = xs.flatten ++ junk
  mem_len : h.mem.length = h.cap * es

theorem flatten_length (es : Nat) (xs : List (List UInt8)) (h : ∀ x ∈ xs, x.length = es) :
    xs.flatten.length = es * xs.length := by
  induction xs with
  | nil => simp
  | cons x xs ih =>
    simp only [List.flatten_cons, List.length_append, List.length_cons, h x (by simp),
      ih (fun y hy => h y (by simp [hy])), Nat.mul_add]; omega

/-- The capacity arithmetic does not wrap, or the list is not yet full. -/
def Room (gran maxCap : Nat) (xs : List (List UInt8)) : Prop := maxCap + gran < 2 ^ 32 ∨ xs.length < maxCap

/-- Capacity left for one more growth step, as capacities are multiples of the granularity. -/
theorem Inv.next {es gran maxCap : Nat} {h : Holder} {xs} (inv : Inv es gran maxCap h xs) (hlt : h.cap < maxCap) :
    h.cap + gran ≤ maxCap := by
  obtain ⟨m, hm⟩ := inv.dvd_max
  obtain ⟨c, hc⟩ := inv.dvd_cap
  rcases Nat.lt_or_ge c m with hcm | hcm
  · have : gran * (c + 1) ≤ gran * m := Nat.mul_le_mul_left _ hcm
    rw [Nat.mul_add, Nat.mul_one] at this; omega
  · have : gran * m ≤ gran * c := Nat.mul_le_mul_left _ hcm
    omega

theorem Inv.max_lt {es gran maxCap : Nat} {h : Holder} {xs} (inv : Inv es gran maxCap h xs) : maxCap < 2 ^ 32 := by
  have h1 := inv.bytes
  have := Nat.le_mul_of_pos_right maxCap inv.es_pos
  omega

theorem ensure_spec {es gran maxCap : Nat} {h : Holder} {xs} (inv : Inv es gran maxCap h xs)
    (hw : Room gran maxCap xs) (a : Bool) :
    (ensure h a).1 = true ∧ Inv es gran maxCap (ensure h a).2 xs ∧ xs.length + 1 ≤ (ensure h a).2.cap ∨
    ensure h a = (false, h) ∧ (a = false ∨ xs.length = maxCap) := by
  unfold ensure
  have hsz := inv.size; have hle := inv.size_le; have hcl := inv.cap_le
  have hml := inv.max_lt
  by_cases hg : h.size + 1 > h.cap
  · rw [if_pos hg]
    have hnw : h.cap + gran < 2 ^ 32 := by
      rcases hw with hw | hw
      · omega
      · have := inv.next (by omega); omega
    rw [inv.hgran, inv.hmax, Nat.mod_eq_of_lt (by omega)]
    by_cases hroom : h.cap + gran ≤ maxCap
    · rw [if_pos hroom]
      unfold increaseCapacity
      rw [inv.hgran, inv.hmax, Nat.mod_eq_of_lt (by omega), if_neg (by omega)]
      cases a with
      | false => right; exact ⟨by simp, .inl rfl⟩
      | true =>
        left
        have hmul : (h.cap + gran) * es ≤ maxCap * es := Nat.mul_le_mul_right _ hroom
        have hb := inv.bytes
        have hml := inv.mem_len
        have hmul2 : h.cap * es ≤ (h.cap + gran) * es := Nat.mul_le_mul_right _ (by omega)
        have hgp := inv.gran_pos
        simp only [if_true, inv.hes]
        rw [Nat.mod_eq_of_lt (by omega : (h.cap + gran) * es < 2 ^ 32)]
        refine ⟨trivial, ⟨rfl, rfl, rfl, inv.es_pos, inv.gran_pos, inv.bytes,
          inv.dvd_max, ?_, hroom, inv.size, by simp only; omega, inv.elems, ?_, ?_⟩, by omega⟩
        · exact (Nat.dvd_add_right inv.dvd_cap).mpr (Nat.dvd_refl gran)
        · obtain ⟨junk, hj⟩ := inv.mem
          simp only
          rw [List.take_of_length_le (by simp; omega)]
          exact ⟨_, by rw [hj, List.append_assoc]⟩
        · simp; omega
    · rw [if_neg hroom]
      right; refine ⟨rfl, .inr ?_⟩
      have : ¬ h.cap < maxCap := fun hlt => hroom (inv.next hlt)
      omega
  · rw [if_neg hg]; left; exact ⟨rfl, inv, by simp only; omega⟩

/-- Shape of a memory that has room for one more element after position `p`. -/
theorem split_mem (es : Nat) (xs : List (List UInt8)) (p : Nat) (hp : p ≤ xs.length)
    (hel : ∀ x ∈ xs, x.length = es) :
    (xs.take p).flatten.length = es * p ∧ (xs.drop p).flatten.length = es * (xs.length - p) ∧
    xs.flatten = (xs.take p).flatten ++ (xs.drop p).flatten := by
  refine ⟨?_, ?_, ?_⟩
  · rw [flatten_length es _ (fun x hx => hel x (List.mem_of_mem_take hx)), List.length_take]
    congr 1; omega
  · rw [flatten_length es _ (fun x hx => hel x (List.mem_of_mem_drop hx)), List.length_drop]
  · rw [← List.flatten_append, List.take_append_drop]

/-- Opening a gap of `v.length` bytes after `A` and filling it with `v`. -/
theorem gap_write (A B J v : List UInt8) (hv : v.length ≤ J.length) :
    ∃ J' m1, Bytes.move (A ++ B ++ J) (A.length + v.length) A.length B.length = some m1 ∧
      Bytes.write m1 A.length v = some (A ++ v ++ B ++ J') ∧
      (A ++ v ++ B ++ J').length = (A ++ B ++ J).length := by
  have h1 : Bytes.read (A ++ B ++ J) A.length B.length = some B := Bytes.read_append A B J
  let m1 := (A ++ B ++ J).take (A.length + v.length) ++ B ++ (A ++ B ++ J).drop (A.length + v.length + B.length)
  have h2 : Bytes.write (A ++ B ++ J) (A.length + v.length) B = some m1 := by
    unfold Bytes.write; rw [if_pos (by simp; omega)]
  have e1 : (A ++ B ++ J).take (A.length + v.length) = A ++ (B ++ J).take v.length := by
    rw [List.append_assoc, List.take_append, List.take_of_length_le (by omega)]; simp
  have hl : ((B ++ J).take v.length).length = v.length := by simp; omega
  refine ⟨(A ++ B ++ J).drop (A.length + v.length + B.length), m1, ?_, ?_, ?_⟩
  · unfold Bytes.move; rw [h1]; exact h2
  · have em : m1 = A ++ (B ++ J).take v.length ++ (B ++ (A ++ B ++ J).drop (A.length + v.length + B.length)) := by
      simp only [m1]; rw [e1]; simp only [List.append_assoc]
    rw [em, Bytes.write_append _ _ _ _ hl.symm]
    simp [List.append_assoc]
  · simp only [List.length_append, List.length_drop]; omega

theorem add_spec {es gran maxCap : Nat} {h : Holder} {xs} (inv : Inv es gran maxCap h xs)
    (hw : Room gran maxCap xs) (v : List UInt8)
    (hv : v.length = es) (a : Bool) :
    ∃ ok h', add h v a = some (ok, h') ∧
      (ok = true ∧ Inv es gran maxCap h' (xs ++ [v]) ∧ xs.length < maxCap ∨
       ok = false ∧ h' = h ∧ (a = false ∨ xs.length = maxCap)) := by
  unfold add
  rcases ensure_spec inv hw a with ⟨h1, i, hc⟩ | ⟨h1, hr⟩
  · generalize ensure h a = r at h1 i hc ⊢
    obtain ⟨b, h2⟩ := r
    simp only at h1 i hc; subst h1
    simp only
    obtain ⟨junk, hj⟩ := i.mem
    have hfl := flatten_length es xs i.elems
    have hcm : (xs.length + 1) * es ≤ h2.cap * es := Nat.mul_le_mul_right _ hc
    have hml := i.mem_len
    have hjl : es ≤ junk.length := by
      rw [hj, List.length_append, hfl] at hml
      rw [Nat.add_mul, Nat.mul_comm xs.length] at hcm; omega
    have hw : Bytes.write h2.mem (h2.es * h2.size) v = some (xs.flatten ++ v ++ junk.drop es) := by
      have e : h2.mem = xs.flatten ++ junk.take es ++ junk.drop es := by
        rw [hj, List.append_assoc, List.take_append_drop]
      rw [e, i.hes, i.size, ← hfl]
      apply Bytes.write_append; simp; omega
    rw [hw]
    refine ⟨true, _, rfl, .inl ⟨rfl, ?_, by have := i.cap_le; omega⟩⟩
    refine ⟨i.hes, i.hgran, i.hmax, i.es_pos, i.gran_pos, i.bytes, i.dvd_max, i.dvd_cap, i.cap_le,
      by simp [i.size], by simpa using hc, ?_, ⟨junk.drop es, by simp⟩, ?_⟩
    · intro x hx
      rcases List.mem_append.mp hx with h | h
      · exact i.elems x h
      · simp at h; rw [h]; exact hv
    · rw [← hml, hj]; simp; omega
  · rw [h1]; exact ⟨false, h, rfl, .inr ⟨rfl, rfl, hr⟩⟩

theorem insert_spec {es gran maxCap : Nat} {h : Holder} {xs} (inv : Inv es gran maxCap h xs)
    (hw : Room gran maxCap xs) (p : Nat)
    (v : List UInt8) (hv : v.length = es) (a : Bool) :
    ∃ ok h', insert h p v a = some (ok, h') ∧
      (ok = true ∧ Inv es gran maxCap h' (xs.take p ++ v :: xs.drop p) ∧ p ≤ xs.length ∧ xs.length < maxCap ∨
       ok = false ∧ h' = h ∧ (a = false ∨ xs.length = maxCap ∨ xs.length < p)) := by
  unfold insert
  by_cases hp : p > h.size
  · rw [if_pos hp]; rw [inv.size] at hp; exact ⟨false, h, rfl, .inr ⟨rfl, rfl, .inr (.inr hp)⟩⟩
  rw [if_neg hp]
  have hp' : p ≤ xs.length := by have := inv.size; omega
  rcases ensure_spec inv hw a with ⟨h1, i, hc⟩ | ⟨h1, hr⟩
  · generalize ensure h a = r at h1 i hc ⊢
    obtain ⟨b, h2⟩ := r
    simp only at h1 i hc; subst h1
    simp only
    obtain ⟨junk, hj⟩ := i.mem
    have hfl := flatten_length es xs i.elems
    have hcm : (xs.length + 1) * es ≤ h2.cap * es := Nat.mul_le_mul_right _ hc
    have hml := i.mem_len
    have hjl : es ≤ junk.length := by
      rw [hj, List.length_append, hfl] at hml
      rw [Nat.add_mul, Nat.mul_comm xs.length] at hcm; omega
    obtain ⟨hA, hB, hAB⟩ := split_mem es xs p hp' i.elems
    obtain ⟨J', m1, hm1, hm2, hm3⟩ := gap_write (xs.take p).flatten (xs.drop p).flatten junk v (by omega)
    rw [← hAB, ← hj, hA, hB, hv] at hm1
    rw [hA] at hm2
    have hmem : ∃ m, (if p < h2.size then Bytes.move h2.mem (h2.es * p + h2.es) (h2.es * p) (h2.es * (h2.size - p))
        else some h2.mem) = some m ∧ Bytes.write m (h2.es * p) v =
          some ((xs.take p).flatten ++ v ++ (xs.drop p).flatten ++ J') := by
      rw [i.hes, i.size]
      by_cases hlt : p < xs.length
      · rw [if_pos hlt]; exact ⟨m1, hm1, hm2⟩
      · rw [if_neg hlt]
        refine ⟨h2.mem, rfl, ?_⟩
        have hz : xs.length - p = 0 := by omega
        have hm1' : Bytes.move h2.mem (es * p + es) (es * p) 0 = some m1 := by rw [hz] at hm1; simpa using hm1
        have : h2.mem = m1 := by
          simp only [Bytes.move, Bytes.read] at hm1'
          split at hm1'
          · simp [Bytes.write] at hm1'; exact hm1'.2
          · simp at hm1'
        rw [this]; exact hm2
    obtain ⟨m, hm, hw⟩ := hmem
    simp only [hm, hw, Option.bind_some]
    refine ⟨true, _, rfl, .inl ⟨rfl, ?_, hp', by have := i.cap_le; omega⟩⟩
    have hlen : (xs.take p ++ v :: xs.drop p).length = xs.length + 1 := by simp; omega
    refine ⟨i.hes, i.hgran, i.hmax, i.es_pos, i.gran_pos, i.bytes, i.dvd_max, i.dvd_cap, i.cap_le,
      by rw [hlen]; simp [i.size], by rw [hlen]; exact hc, ?_, ⟨J', by simp⟩, ?_⟩
    · intro x hx
      rcases List.mem_append.mp hx with h | h
      · exact i.elems x (List.mem_of_mem_take h)
      · rcases List.mem_cons.mp h with h | h
        · rw [h]; exact hv
        · exact i.elems x (List.mem_of_mem_drop h)
    · simp only; rw [hm3, ← hAB, ← hj]; exact hml
  · rw [h1]; exact ⟨false, h, rfl, .inr ⟨rfl, rfl, hr.elim .inl (fun e => .inr (.inl e))⟩⟩

/-- Memory around an existing element. -/
theorem split_elem (es : Nat) (xs : List (List UInt8)) (p : Nat) (hp : p < xs.length)
    (hel : ∀ x ∈ xs, x.length = es) :
    xs.flatten = (xs.take p).flatten ++ xs[p] ++ (xs.drop (p + 1)).flatten ∧
    (xs.take p).flatten.length = es * p ∧ xs[p].length = es ∧
    (xs.drop (p + 1)).flatten.length = es * (xs.length - 1 - p) := by
  refine ⟨?_, (split_mem es xs p (by omega) hel).1, hel _ (List.getElem_mem hp), ?_⟩
  · rw [(split_mem es xs p (by omega) hel).2.2, List.drop_eq_getElem_cons hp, List.flatten_cons, List.append_assoc]
  · rw [(split_mem es xs (p + 1) (by omega) hel).2.1]; congr 1; omega

theorem peek_spec {es gran maxCap : Nat} {h : Holder} {xs} (inv : Inv es gran maxCap h xs) (p : Nat) :
    peek h p = some xs[p]? := by
  unfold peek
  by_cases hp : p ≥ h.size
  · rw [if_pos hp]; rw [inv.size] at hp; rw [List.getElem?_eq_none hp]
  · rw [if_neg hp]
    have hp' : p < xs.length := by have := inv.size; omega
    obtain ⟨e, h1, h2, h3⟩ := split_elem es xs p hp' inv.elems
    obtain ⟨junk, hj⟩ := inv.mem
    rw [hj, e, inv.hes, ← h1]
    have := Bytes.read_append (xs.take p).flatten xs[p] ((xs.drop (p + 1)).flatten ++ junk)
    rw [h2] at this
    simp only [List.append_assoc] at this ⊢
    rw [this]; simp [hp']

/-- Closing the gap left by an element. -/
theorem close_gap (A v B J : List UInt8) :
    Bytes.move (A ++ v ++ B ++ J) A.length (A.length + v.length) B.length =
      some (A ++ B ++ (A ++ v ++ B ++ J).drop (A.length + B.length)) := by
  have h1 : Bytes.read (A ++ v ++ B ++ J) (A.length + v.length) B.length = some B := by
    have := Bytes.read_append (A ++ v) B J
    rwa [List.length_append] at this
  simp only [Bytes.move, h1, Option.bind_some]
  unfold Bytes.write
  rw [if_pos (by simp; omega)]
  congr 2
  simp [List.append_assoc]

theorem removed {es gran maxCap : Nat} {h : Holder} {xs} (inv : Inv es gran maxCap h xs) (p : Nat)
    (hp : p < xs.length) :
    ∃ m, (if p < h.size - 1 then Bytes.move h.mem (h.es * p) (h.es * p + h.es) (h.es * (h.size - 1 - p))
        else some h.mem) = some m ∧
      Inv es gran maxCap { h with mem := m, size := h.size - 1 } (xs.eraseIdx p) := by
  obtain ⟨e, h1, h2, h3⟩ := split_elem es xs p hp inv.elems
  obtain ⟨junk, hj⟩ := inv.mem
  have hml := inv.mem_len
  have hsl := inv.size_le
  have her : xs.eraseIdx p = xs.take p ++ xs.drop (p + 1) := List.eraseIdx_eq_take_drop_succ ..
  have hmk : ∀ m : List UInt8, (∃ j, m = (xs.take p).flatten ++ (xs.drop (p + 1)).flatten ++ j) →
      m.length = h.mem.length → Inv es gran maxCap { h with mem := m, size := h.size - 1 } (xs.eraseIdx p) := by
    rintro m ⟨j, rfl⟩ hl
    have hlen : (xs.eraseIdx p).length = xs.length - 1 := by simp [List.length_eraseIdx, hp]
    refine ⟨inv.hes, inv.hgran, inv.hmax, inv.es_pos, inv.gran_pos, inv.bytes, inv.dvd_max,
      inv.dvd_cap, inv.cap_le, by rw [hlen]; simp [inv.size], by rw [hlen]; simp; omega, ?_, ⟨j, by rw [her]; simp⟩, ?_⟩
    · intro x hx; exact inv.elems x (List.mem_of_mem_eraseIdx hx)
    · simp only; rw [hl]; exact hml
  have hes := inv.hes
  by_cases hlt : p < h.size - 1
  · rw [if_pos hlt]
    have hc := close_gap (xs.take p).flatten xs[p] (xs.drop (p + 1)).flatten junk
    rw [h1, h2, h3, ← e, ← hj] at hc
    have hc' : Bytes.move h.mem (h.es * p) (h.es * p + h.es) (h.es * (h.size - 1 - p)) =
        Bytes.move h.mem (es * p) (es * p + es) (es * (xs.length - 1 - p)) := by rw [hes, inv.size]
    rw [hc] at hc'
    refine ⟨_, hc', hmk _ ⟨_, rfl⟩ ?_⟩
    have hfl := congrArg List.length e
    simp only [List.length_append, List.length_drop, h1, h2, h3] at hfl ⊢
    have : h.mem.length = xs.flatten.length + junk.length := by rw [hj, List.length_append]
    omega
  · rw [if_neg hlt]
    refine ⟨h.mem, rfl, hmk _ ?_ rfl⟩
    have hz : xs.length - 1 - p = 0 := by have := inv.size; omega
    have hnil : (xs.drop (p + 1)).flatten = [] := by
      apply List.eq_nil_of_length_eq_zero; rw [h3, hz]; simp
    refine ⟨xs[p] ++ junk, ?_⟩
    rw [hj, e, hnil]; simp [List.append_assoc]

theorem step_spec {es gran maxCap : Nat} {h : Holder} {xs} (inv : Inv es gran maxCap h xs) (hw : Room gran maxCap xs)
    (op : Op) (hop : OpOk es op) :
    ∃ o h' xs', step h op = some (o, h') ∧ Ideal maxCap xs op o xs' ∧ Inv es gran maxCap h' xs' := by
  cases op with
  | add v a =>
    obtain ⟨ok, h', e, hc⟩ := add_spec inv hw v hop a
    simp only [step, e, Option.map_some]
    rcases hc with ⟨rfl, i, hlt⟩ | ⟨rfl, rfl, hr⟩
    · exact ⟨_, _, _, rfl, by simp [Ideal]; omega, i⟩
    · refine ⟨_, _, xs, rfl, ?_, inv⟩
      simp [Ideal]; rcases hr with rfl | hr
      · simp
      · omega
  | insert p v a =>
    obtain ⟨ok, h', e, hc⟩ := insert_spec inv hw p v hop a
    simp only [step, e, Option.map_some]
    rcases hc with ⟨rfl, i, hp, hlt⟩ | ⟨rfl, rfl, hr⟩
    · exact ⟨_, _, _, rfl, by simp [Ideal]; omega, i⟩
    · refine ⟨_, _, xs, rfl, ?_, inv⟩
      simp [Ideal]; rcases hr with rfl | hr | hr
      · simp
      · omega
      · omega
  | set p v =>
    simp only [step, set]
    by_cases hp : p < h.size
    · rw [if_pos hp]
      have hp' : p < xs.length := by have := inv.size; omega
      obtain ⟨e, h1, h2, h3⟩ := split_elem es xs p hp' inv.elems
      obtain ⟨junk, hj⟩ := inv.mem
      have hw : Bytes.write h.mem (p * h.es) v = some ((xs.take p).flatten ++ v ++ ((xs.drop (p + 1)).flatten ++ junk)) := by
        have hv : v.length = es := hop
        rw [hj, e, inv.hes, Nat.mul_comm, ← h1]
        rw [List.append_assoc ((xs.take p).flatten ++ xs[p])]
        exact Bytes.write_append _ _ _ _ (by rw [hv, h2])
      rw [hw]
      refine ⟨_, _, xs.set p v, rfl, ?_, ?_⟩
      · simp [Ideal, hp']
      · have hset : xs.set p v = xs.take p ++ v :: xs.drop (p + 1) := by
          rw [List.set_eq_take_append_cons_drop, if_pos hp']
        refine ⟨inv.hes, inv.hgran, inv.hmax, inv.es_pos, inv.gran_pos, inv.bytes, inv.dvd_max,
          inv.dvd_cap, inv.cap_le, by simp [inv.size], by simpa using inv.size_le, ?_, ⟨junk, by rw [hset]; simp⟩, ?_⟩
        · intro x hx
          rcases List.mem_or_eq_of_mem_set hx with h | h
          · exact inv.elems x h
          · rw [h]; exact hop
        · have hml := inv.mem_len
          have hfl := congrArg List.length e
          have hv : v.length = es := hop
          rw [← hml, hj]
          simp only [List.length_append] at hfl ⊢; omega
    · rw [if_neg hp]
      have hp' : ¬ p < xs.length := by have := inv.size; omega
      exact ⟨_, _, xs, rfl, by simp [Ideal, hp'], inv⟩
  | remove p =>
    simp only [step, remove]
    by_cases hp : p ≥ h.size
    · rw [if_pos hp]
      have hp' : ¬ p < xs.length := by have := inv.size; omega
      exact ⟨_, _, xs, rfl, by simp [Ideal, hp'], inv⟩
    · rw [if_neg hp]
      have hp' : p < xs.length := by have := inv.size; omega
      obtain ⟨m, hm, i⟩ := removed inv p hp'
      simp only [hm, Option.bind_some, Option.map_some]
      exact ⟨_, _, _, rfl, by simp [Ideal, hp'], i⟩
  | extract p =>
    simp only [step, extract]
    by_cases hp : p ≥ h.size
    · rw [if_pos hp]
      have hp' : ¬ p < xs.length := by have := inv.size; omega
      refine ⟨_, _, xs, rfl, ?_, inv⟩
      simp [Ideal, hp', List.eraseIdx_of_length_le (Nat.le_of_not_lt hp')]
    · rw [if_neg hp]
      have hp' : p < xs.length := by have := inv.size; omega
      obtain ⟨m, hm, i⟩ := removed inv p hp'
      have hpk := peek_spec inv p
      unfold peek at hpk; rw [if_neg hp] at hpk
      cases hr : Bytes.read h.mem (h.es * p) h.es with
      | none => rw [hr] at hpk; simp at hpk
      | some v =>
        rw [hr] at hpk
        simp only [Option.bind_eq_bind, Option.bind_some] at hpk
        simp only [hm, Option.bind_some, Option.map_some]
        refine ⟨_, _, _, rfl, ?_, i⟩
        have : some v = xs[p]? := by simpa using hpk
        simp [Ideal, hp'] at this ⊢; exact this
  | peek p =>
    simp only [step, peek_spec inv p, Option.map_some]
    refine ⟨_, _, xs, rfl, ?_, inv⟩
    simp [Ideal]
  | clean =>
    refine ⟨_, _, [], rfl, by simp [Ideal], ?_⟩
    exact ⟨inv.hes, inv.hgran, inv.hmax, inv.es_pos, inv.gran_pos, inv.bytes, inv.dvd_max,
      inv.dvd_cap, inv.cap_le, rfl, by simp, by simp, ⟨h.mem, by simp [clean]⟩, inv.mem_len⟩

theorem ideal_length {limit xs op o xs'} (h : Ideal limit xs op o xs') : xs'.length ≤ xs.length + 1 := by
  cases op <;> simp only [Ideal] at h
  · obtain ⟨h, _⟩ := h; split at h
    · simp [h.1]
    · simp [h]
  · obtain ⟨h, _⟩ := h; split at h
    · simp [h.1]; omega
    · simp [h]
  · split at h <;> simp [h.2]
  · split at h
    · rw [h.2, List.length_eraseIdx]; split <;> omega
    · simp [h.2]
  · rw [h.2.2, List.length_eraseIdx]; split <;> omega
  · simp [h.2.2]
  · simp [h.2]

theorem run_spec {es gran maxCap : Nat} (ops : List Op) {h : Holder} {xs} (inv : Inv es gran maxCap h xs)
    (hw : maxCap + gran < 2 ^ 32 ∨ xs.length + ops.length ≤ maxCap) (hops : ∀ op ∈ ops, OpOk es op) :
    ∃ os h' xs', run h ops = some (os, h') ∧ IdealRun maxCap xs ops os xs' ∧ Inv es gran maxCap h' xs' := by
  induction ops generalizing h xs with
  | nil => exact ⟨[], h, xs, rfl, .nil xs, inv⟩
  | cons op ops ih =>
    have hw1 : Room gran maxCap xs := hw.imp id (by simp; omega)
    obtain ⟨o, h1, xs1, e1, i1, inv1⟩ := step_spec inv hw1 op (hops op (by simp))
    have hl := ideal_length i1
    obtain ⟨os, h2, xs2, e2, i2, inv2⟩ := ih inv1 (hw.imp id (by simp; omega)) (fun x hx => hops x (by simp [hx]))
    exact ⟨o :: os, h2, xs2, by simp [run, e1, e2], .cons i1 i2, inv2⟩

theorem maxCap_new (es gran : Nat) (hes : 1 ≤ es) :
    (new es gran).maxCap = ((2 ^ 32 - 1) / (gran * es)) * gran := by
  simp only [new]
  rw [← Nat.mul_assoc]; exact Nat.mul_div_cancel _ hes

theorem inv_new (es gran : Nat) (hes : 1 ≤ es) (hgran : 1 ≤ gran) :
    Inv es gran (new es gran).maxCap (new es gran) [] := by
  have hmax := maxCap_new es gran hes
  refine ⟨rfl, rfl, rfl, hes, hgran, ?_, ?_, ⟨0, rfl⟩, Nat.zero_le _, rfl, Nat.le_refl _, by simp,
    ⟨[], rfl⟩, by simp [new]⟩
  · rw [hmax, Nat.mul_assoc]
    have := Nat.div_mul_le_self (2 ^ 32 - 1) (gran * es)
    omega
  · rw [hmax]; exact Nat.dvd_mul_left gran _

/-- **C01** (partial).  For every element size, granularity and history of calls on a new list: no call accesses
memory outside the allocated block (the run is defined), the values returned are those of an ideal list bounded by
the maximum capacity (about 2^32 bytes), and afterwards `GetSize` and every `Peek` describe that ideal list.
Missing: for single-byte elements the history must be shorter than the maximum capacity (2^32 calls); beyond that the
claim is false, see `c01_byte_list_overflows`.  For larger elements there is no restriction (`c01_history`). -/
theorem c01_history_partial (es gran : Nat) (hes : 1 ≤ es) (hgran : 1 ≤ gran) (ops : List Op)
    (hw : (new es gran).maxCap + gran < 2 ^ 32 ∨ ops.length ≤ (new es gran).maxCap)
    (hops : ∀ op ∈ ops, OpOk es op) :
    ∃ os h xs, run (new es gran) ops = some (os, h) ∧ IdealRun (new es gran).maxCap [] ops os xs ∧
      h.size = xs.length ∧ ∀ p, peek h p = some xs[p]? := by
  obtain ⟨os, h, xs, e, hi, inv'⟩ := run_spec ops (inv_new es gran hes hgran) (by simpa using hw) hops
  exact ⟨os, h, xs, e, hi, inv'.size, peek_spec inv'⟩

/-- **C01** for elements of two bytes or more (whose growth step fits in 32 bits): every history. -/
theorem c01_history (es gran : Nat) (hes : 2 ≤ es) (hgran : 1 ≤ gran) (hstep : gran * es < 2 ^ 32)
    (ops : List Op) (hops : ∀ op ∈ ops, OpOk es op) :
    ∃ os h xs, run (new es gran) ops = some (os, h) ∧ IdealRun (new es gran).maxCap [] ops os xs ∧
      h.size = xs.length ∧ ∀ p, peek h p = some xs[p]? := by
  refine c01_history_partial es gran (by omega) hgran ops (.inl ?_) hops
  have hmax := maxCap_new es gran (by omega)
  have h1 := Nat.div_mul_le_self (2 ^ 32 - 1) (gran * es)
  rw [← Nat.mul_assoc, ← hmax] at h1
  have h2 : (new es gran).maxCap * 2 ≤ (new es gran).maxCap * es := Nat.mul_le_mul_left _ hes
  have h3 : gran * 2 ≤ gran * es := Nat.mul_le_mul_left _ hes
  omega

/-- A history with growth, insertion in the middle, an out-of-range call and a removal. -/
example : (run (new 2 1) [.add [1, 1] true, .add [3, 3] true, .insert 1 [2, 2] true, .set 7 [0, 0], .extract 0,
    .peek 0]).map (fun r => r.1.map (fun o => (o.ok, o.value))) =
    some [(true, none), (true, none), (true, none), (false, none), (true, some [1, 1]), (true, some [2, 2])] := by
  decide

theorem ideal_adds (limit : Nat) (n : Nat) (v : List UInt8) (xs os xs')
    (h : IdealRun limit xs (List.replicate n (.add v true)) os xs') (hn : xs.length + n ≤ limit) :
    xs'.length = xs.length + n := by
  induction n generalizing xs os with
  | zero => cases h; rfl
  | succ n ih =>
    rw [List.replicate_succ] at h
    cases h with
    | cons h t =>
      simp only [Ideal] at h
      have hok := h.2 trivial (by omega)
      rw [hok] at h
      have := ih _ _ t (by rw [h.1.1]; simp; omega)
      rw [this, h.1.1]; simp; omega

theorem run_append (h : Holder) (ops1 ops2 : List Op) :
    run h (ops1 ++ ops2) = (run h ops1).bind (fun r => (run r.2 ops2).map (fun q => (r.1 ++ q.1, q.2))) := by
  induction ops1 generalizing h with
  | nil => simp only [List.nil_append, run, Option.bind_some]; cases run h ops2 <;> simp
  | cons op ops ih =>
    simp only [List.cons_append, run]
    cases step h op with
    | none => rfl
    | some r =>
      simp only [Option.bind_eq_bind, Option.bind_some, ih]
      cases run r.2 ops with
      | none => rfl
      | some q =>
        simp only [Option.bind_some]
        cases run q.2 ops2 <;> simp

/-- Disagreement with **C01**: on a list of single-byte elements the `uint32` sum of capacity and granularity wraps
once the maximum capacity is reached; the guard is passed, the memory is shrunk and the next `Add` writes outside it. -/
theorem c01_byte_list_overflows (gran : Nat) (hg : 1 ≤ gran) (hg2 : gran < 2 ^ 32) (b : UInt8) :
    run (new 1 gran) (List.replicate (new 1 gran).maxCap (.add [b] true) ++ [.add [b] true]) = none := by
  have hmax := maxCap_new 1 gran (by omega)
  rw [Nat.mul_one] at hmax
  obtain ⟨os, h, xs, e, hi, inv⟩ := run_spec (List.replicate (new 1 gran).maxCap (.add [b] true))
    (inv_new 1 gran (by omega) hg) (.inr (by simp)) (by
      intro op hop; rw [List.eq_of_mem_replicate hop]; rfl)
  have hlen := ideal_adds _ _ _ _ _ _ hi (by simp)
  rw [List.length_nil, Nat.zero_add] at hlen
  rw [run_append, e, Option.bind_some]
  have hcap : h.cap = (new 1 gran).maxCap := by have := inv.size_le; have := inv.cap_le; omega
  have hlt := inv.max_lt
  generalize hM : (new 1 gran).maxCap = M at *
  -- the maximum capacity is within one granule of 2^32
  have hdm := Nat.div_add_mod (2 ^ 32 - 1) gran
  have hmod := Nat.mod_lt (2 ^ 32 - 1) hg
  rw [Nat.mul_comm, ← hmax] at hdm
  have hge : gran ≤ M := by
    have : 1 ≤ (2 ^ 32 - 1) / gran := (Nat.le_div_iff_mul_le hg).mpr (by omega)
    rw [hmax]; exact Nat.le_mul_of_pos_left gran this
  have hwrap : (M + gran) % 2 ^ 32 = M + gran - 2 ^ 32 := by
    rw [Nat.mod_eq_sub_mod (by omega), Nat.mod_eq_of_lt (by omega)]
  have hnone : step h (.add [b] true) = none := by
    simp only [step, add, ensure, increaseCapacity, inv.size, inv.hgran, inv.hmax, inv.hes, hcap, hlen, hwrap]
    rw [if_pos (by omega), if_pos (by omega), if_neg (by omega)]
    simp only [Nat.mul_one, if_true, Bytes.write]
    rw [if_neg]
    · rfl
    · simp only [List.length_take, List.length_append, List.length_replicate, List.length_singleton]
      omega
  simp [run, hnone]

/-- **C01.** `operator[]` on a list that is not empty, after any history: the element at the position, and the last
element for every position past the end. -/
theorem c01_subscript (es gran : Nat) (hes : 1 ≤ es) (hgran : 1 ≤ gran) (ops : List Op)
    (hw : (new es gran).maxCap + gran < 2 ^ 32 ∨ ops.length ≤ (new es gran).maxCap)
    (hops : ∀ op ∈ ops, OpOk es op) :
    ∃ os h xs, run (new es gran) ops = some (os, h) ∧ IdealRun (new es gran).maxCap [] ops os xs ∧
      (xs ≠ [] → ∀ p, index h p = if p < xs.length then xs[p]? else xs.getLast?) := by
  obtain ⟨os, h, xs, e, hi, inv⟩ := run_spec ops (inv_new es gran hes hgran) (by simpa using hw) hops
  refine ⟨os, h, xs, e, hi, fun hne p => ?_⟩
  have hpos := List.length_pos_iff.mpr hne
  have hml := inv.max_lt; have hsz := inv.size; have hle := inv.size_le; have hcl := inv.cap_le
  have hread : ∀ q, q < xs.length → Bytes.read h.mem (h.es * q) h.es = xs[q]? := by
    intro q hq
    have := peek_spec inv q
    unfold peek at this
    rw [if_neg (by omega)] at this
    simp only [Option.bind_eq_bind, Option.bind_eq_some_iff, Option.some.injEq] at this
    obtain ⟨v, h1, h2⟩ := this
    rw [h1, h2]
  have hlast : (h.size + 2 ^ 32 - 1) % 2 ^ 32 = xs.length - 1 := by omega
  simp only [index, hlast]
  by_cases hp : p < xs.length
  · rw [if_neg (by omega), if_pos hp, hread p hp]
  · rw [if_neg hp, List.getLast?_eq_getElem?]
    by_cases hq : p > xs.length - 1
    · rw [if_pos hq, hread _ (by omega)]
    · omega

/-- `operator[]` on a new, empty list reads outside of the block (there is none). -/
theorem c01_subscript_of_empty (es gran : Nat) (hes : 1 ≤ es) (p : Nat) : index (new es gran) p = none := by
  simp only [index, new]
  have h : ∀ q, Bytes.read ([] : List UInt8) q es = none := by
    intro q; unfold Bytes.read; rw [if_neg (by simp; omega)]
  rw [h, h]; simp

example : ((run (new 1 4) [.add [7] true, .add [8] true]).map fun r => (index r.2 0, index r.2 5)) =
    some (some [7], some [8]) := by decide

end Verif.StaticList
