import Verif.Spec.ThreadsDb
namespace Verif.ThreadsDb
open Verif.Spec.ThreadsDb

/-- The records of the array. -/
def recs (l : List (Option Rec)) : List Rec := l.filterMap id

theorem recs_nil : recs [] = [] := rfl
theorem recs_none (l : List (Option Rec)) : recs (none :: l) = recs l := rfl
theorem recs_some (r : Rec) (l : List (Option Rec)) : recs (some r :: l) = r :: recs l := rfl

theorem recs_append (l m : List (Option Rec)) : recs (l ++ m) = recs l ++ recs m := by simp [recs]

theorem recs_replicate (g : Nat) : recs (List.replicate g none) = [] := by
  induction g with
  | zero => rfl
  | succ g ih => rw [List.replicate_succ, recs_none]; exact ih

theorem recs_length_le (l : List (Option Rec)) : (recs l).length ≤ l.length := List.length_filterMap_le ..

theorem recs_full : ∀ (l : List (Option Rec)), (∀ (i : Nat), i < l.length → l[i]? ≠ some none) → (recs l).length = l.length
  | [], _ => rfl
  | none :: l, h => absurd rfl (h 0 (by simp))
  | some r :: l, h => by
    rw [recs_some, List.length_cons, List.length_cons,
      recs_full l fun i hi => by have := h (i + 1) (by simpa using hi); simpa using this]

/-- All the places but one are taken. -/
theorem recs_one : ∀ (l : List (Option Rec)) (k : Nat), k < l.length → (∀ (i : Nat), i < l.length → i ≠ k → l[i]? ≠ some none) →
    l.length ≤ (recs l).length + 1
  | [], _, h, _ => by simp at h
  | none :: l, 0, _, h => by
    rw [recs_none, recs_full l fun i hi => by have := h (i + 1) (by simpa using hi) (by omega); simpa using this]
    simp
  | some r :: l, 0, _, h => by
    have e := recs_full l fun i hi => by have := h (i + 1) (by simpa using hi) (by omega); simpa using this
    rw [recs_some]; simp only [List.length_cons]; omega
  | none :: l, k + 1, _, h => absurd rfl (h 0 (by simp) (by omega))
  | some r :: l, k + 1, hk, h => by
    have := recs_one l k (by simpa using hk) fun i hi hik => by
      have := h (i + 1) (by simpa using hi) (by omega)
      simpa using this
    rw [recs_some]; simp only [List.length_cons]; omega

theorem recs_put (r : Rec) : ∀ (l : List (Option Rec)) (i : Nat), l[i]? = some none → (recs (l.set i (some r))).Perm (r :: recs l)
  | [], _, h => by simp at h
  | none :: l, 0, _ => by rw [List.set_cons_zero, recs_some, recs_none]
  | some x :: l, 0, h => by simp at h
  | none :: l, i + 1, h => by
    rw [List.set_cons_succ, recs_none, recs_none]; exact recs_put r l i (by simpa using h)
  | some x :: l, i + 1, h => by
    rw [List.set_cons_succ, recs_some, recs_some]
    exact ((recs_put r l i (by simpa using h)).cons x).trans (.swap ..)

theorem recs_take : ∀ (l : List (Option Rec)) (i : Nat) (r : Rec), l[i]? = some (some r) →
    (r :: recs (l.set i none)).Perm (recs l)
  | [], _, _, h => by simp at h
  | none :: l, 0, _, h => by simp at h
  | some x :: l, 0, r, h => by
    simp at h; subst h
    rw [List.set_cons_zero, recs_some, recs_none]
  | none :: l, i + 1, r, h => by
    rw [List.set_cons_succ, recs_none, recs_none]; exact recs_take l i r (by simpa using h)
  | some x :: l, i + 1, r, h => by
    rw [List.set_cons_succ, recs_some, recs_some]
    exact (List.Perm.swap ..).trans ((recs_take l i r (by simpa using h)).cons x)

theorem search_spec (l : List (Option Rec)) (n : Nat) (hn : 0 < n) (hm : n < l.length) : ∀ (k j fuel : Nat), k + j + 1 = l.length → k < fuel →
    (∃ i, search l l.length (n - 1) fuel (if n + j < l.length then n + j else n + j - l.length) = some (some i) ∧ l[i]? = some none) ∨
    (search l l.length (n - 1) fuel (if n + j < l.length then n + j else n + j - l.length) = some none ∧
      ∀ i, j ≤ i → i + 1 < l.length → l[if n + i < l.length then n + i else n + i - l.length]? ≠ some none) := by
  intro k
  induction k with
  | zero =>
    intro j fuel hk hf
    obtain ⟨fuel, rfl⟩ : ∃ f, fuel = f + 1 := ⟨fuel - 1, by omega⟩
    refine Or.inr ⟨?_, fun i h1 h2 => by omega⟩
    have : (if n + j < l.length then n + j else n + j - l.length) = n - 1 := by split <;> omega
    rw [this, search]; simp
  | succ k ih =>
    intro j fuel hk hf
    obtain ⟨fuel, rfl⟩ : ∃ f, fuel = f + 1 := ⟨fuel - 1, by omega⟩
    generalize hx : (if n + j < l.length then n + j else n + j - l.length) = x
    have hxl : x < l.length := by rw [← hx]; split <;> omega
    have hxs : x ≠ n - 1 := by rw [← hx]; split <;> omega
    have hnext : (if x + 1 ≥ l.length then x + 1 - l.length else x + 1) =
        if n + (j + 1) < l.length then n + (j + 1) else n + (j + 1) - l.length := by
      rw [← hx]; split <;> split <;> split <;> omega
    rw [search, if_pos hxs]
    rcases hv : l[x]? with _ | _ | r
    · rw [List.getElem?_eq_none_iff] at hv; omega
    · exact Or.inl ⟨x, rfl, hv⟩
    · simp only
      rw [hnext]
      rcases ih (j + 1) fuel (by omega) (by omega) with h | ⟨h1, h2⟩
      · exact Or.inl h
      · refine Or.inr ⟨h1, fun i hi hi2 => ?_⟩
        rcases Nat.eq_or_lt_of_le hi with e | e
        · subst e; rw [hx, hv]; simp
        · exact h2 i e hi2

/-- The search finds an empty place, or the only empty one is before the first that it reads. -/
theorem search_start (l : List (Option Rec)) (hm : (recs l).length < l.length) :
    (∃ i, search l l.length (if (recs l).length = 0 then 2 ^ 32 - 1 else (recs l).length - 1) (l.length + 1) (recs l).length = some (some i) ∧
      l[i]? = some none) ∨
    (search l l.length (if (recs l).length = 0 then 2 ^ 32 - 1 else (recs l).length - 1) (l.length + 1) (recs l).length = some none ∧
      0 < (recs l).length ∧ l.length = (recs l).length + 1 ∧ l[(recs l).length - 1]? = some none) := by
  by_cases h0 : (recs l).length = 0
  · refine Or.inl ⟨0, ?_⟩
    cases l with
    | nil => simp at hm
    | cons a l =>
      cases a with
      | none => rw [h0, search]; simp
      | some r => rw [recs_some] at h0; simp at h0
  · rw [if_neg h0]
    have hs := search_spec l (recs l).length (by omega) hm (l.length - 1) 0 (l.length + 1) (by omega) (by omega)
    have hif : (if (recs l).length + 0 < l.length then (recs l).length + 0 else (recs l).length + 0 - l.length) = (recs l).length := by
      rw [Nat.add_zero, if_pos hm]
    rw [hif] at hs
    rcases hs with h | ⟨h1, h2⟩
    · exact Or.inl h
    · have hall : ∀ (i : Nat), i < l.length → i ≠ (recs l).length - 1 → l[i]? ≠ some none := by
        intro i hi hne
        by_cases hge : (recs l).length ≤ i
        · have := h2 (i - (recs l).length) (by omega) (by omega)
          rwa [show (recs l).length + (i - (recs l).length) = i by omega, if_pos hi] at this
        · have := h2 (i + l.length - (recs l).length) (by omega) (by omega)
          rw [show (recs l).length + (i + l.length - (recs l).length) = i + l.length by omega, if_neg (by omega),
            Nat.add_sub_cancel] at this
          exact this
      have hle := recs_one l ((recs l).length - 1) (by omega) hall
      refine Or.inr ⟨h1, by omega, by omega, ?_⟩
      rcases hv : l[(recs l).length - 1]? with _ | _ | r
      · rw [List.getElem?_eq_none_iff] at hv; omega
      · rfl
      · exfalso
        have := recs_full l fun i hi => by
          by_cases e : i = (recs l).length - 1
          · rw [e, hv]; simp
          · exact hall i hi e
        omega

theorem scan_spec (l : List (Option Rec)) (p : Rec → Bool) : ∀ (fuel i : Nat), fuel + i = l.length →
    ∃ o, scan (some l) l.length p fuel i = some o ∧ o.map (·.2) = (recs (l.drop i)).find? p ∧
      ∀ x, o = some x → l[x.1]? = some (some x.2) := by
  intro fuel
  induction fuel with
  | zero => intro i h; refine ⟨none, rfl, ?_, by simp⟩; rw [List.drop_eq_nil_of_le (by omega)]; rfl
  | succ fuel ih =>
    intro i h
    have hi : i < l.length := by omega
    rw [scan, if_pos hi]
    obtain ⟨o, h1, h2, h3⟩ := ih (i + 1) (by omega)
    rw [List.drop_eq_getElem_cons hi]
    simp only [List.getElem?_eq_getElem hi]
    rcases hv : l[i] with _ | r
    · simp only; rw [recs_none]; exact ⟨o, h1, h2, h3⟩
    · simp only; rw [recs_some, List.find?_cons]
      cases hp : p r with
      | true => refine ⟨some (i, r), by simp, rfl, ?_⟩; rintro _ ⟨⟩; simp [List.getElem?_eq_getElem hi, hv]
      | false => exact ⟨o, by simpa using h1, h2, h3⟩

theorem countTo_spec (l : List (Option Rec)) : ∀ (fuel i c : Nat), fuel + i = l.length → 0 < c →
    ∃ c' i', countTo (some l) l.length fuel c i = some (c', i') ∧
      (∀ r, (recs (l.drop i))[c - 1]? = some r → c' = 0 ∧ 0 < i' ∧ l[i' - 1]? = some (some r)) ∧
      ((recs (l.drop i))[c - 1]? = none → c' ≠ 0) := by
  intro fuel
  induction fuel with
  | zero =>
    intro i c h hc
    refine ⟨c, i, rfl, ?_, fun _ => by omega⟩
    rw [List.drop_eq_nil_of_le (by omega)]; simp [recs]
  | succ fuel ih =>
    intro i c h hc
    have hi : i < l.length := by omega
    rw [countTo, if_pos ⟨by omega, hi⟩]
    rw [List.drop_eq_getElem_cons hi]
    simp only [List.getElem?_eq_getElem hi]
    rcases hv : l[i] with _ | r
    · simp only; rw [recs_none]; exact ih (i + 1) c (by omega) hc
    · simp only; rw [recs_some]
      by_cases h1 : c = 1
      · subst h1
        refine ⟨0, i + 1, ?_, ?_, by simp⟩
        · cases fuel with
          | zero => rfl
          | succ f => rw [countTo, if_neg (by simp)]
        · intro x hx
          simp at hx; subst hx
          exact ⟨rfl, by omega, by simp [List.getElem?_eq_getElem hi, hv]⟩
      · obtain ⟨c', i', e1, e2, e3⟩ := ih (i + 1) (c - 1) (by omega) (by omega)
        refine ⟨c', i', e1, ?_⟩
        rw [show c - 1 = (c - 1 - 1) + 1 by omega, List.getElem?_cons_succ]
        exact ⟨e2, e3⟩

/-- What the database stands for. -/
def Rep (db : Db) (t : Table) : Prop :=
  (db = empty ∧ t = []) ∨ ∃ l, db = ⟨some l, t.length, l.length⟩ ∧ (recs l).Perm t

theorem lookup_perm {l t : List Rec} (hp : l.Perm t) (hd : (t.map (·.id)).Nodup) (i : Nat) : lookup l i = lookup t i := by
  unfold lookup
  induction hp with
  | nil => rfl
  | cons x _ ih => rw [List.find?_cons, List.find?_cons, ih (by simp at hd ⊢; exact hd.2)]
  | swap x y l =>
    simp only [List.map_cons, List.nodup_cons, List.mem_cons, not_or] at hd
    simp only [List.find?_cons]
    by_cases h1 : x.id == i <;> by_cases h2 : y.id == i <;> simp [h1, h2]
    simp at h1 h2
    exact absurd (h1.trans h2.symm) hd.1.1
  | trans h1 h2 ih1 ih2 => rw [ih1 ((h2.map _).nodup_iff.mpr hd), ih2 hd]

theorem rep_new (g : Nat) (hg : 0 < g) (r : Rec) (db : Db) (t : Table) (h : Rep db t) :
    ∃ ok db', newEntry g true r db = some (ok, db') ∧ Rep db' (step t (.new r) ok) ∧
      (ok = false → 0 < t.length ∧ db.max = t.length + 1 ∧ db' = db) := by
  have key : ∀ (l : List (Option Rec)), (recs l).Perm t → t.length < l.length →
      ∃ ok db', (match search l l.length (if t.length = 0 then 2 ^ 32 - 1 else t.length - 1) (l.length + 1) t.length with
        | none => none
        | some none => some (false, (⟨some l, t.length, l.length⟩ : Db))
        | some (some i) => some (true, ⟨some (l.set i (some r)), t.length + 1, l.length⟩)) = some (ok, db') ∧
        Rep db' (step t (.new r) ok) ∧ (ok = false → 0 < t.length ∧ l.length = t.length + 1 ∧ db' = ⟨some l, t.length, l.length⟩) := by
    intro l hp hl
    have hlen := hp.length_eq
    rcases search_start l (by omega) with ⟨i, h1, h2⟩ | ⟨h1, h2, h3, -⟩
    · rw [hlen] at h1
      rw [h1]
      refine ⟨true, _, rfl, Or.inr ⟨l.set i (some r), by simp [step], ?_⟩, by simp⟩
      exact (recs_put r l i h2).trans (hp.cons r)
    · rw [hlen] at h1
      rw [h1]
      exact ⟨false, _, rfl, Or.inr ⟨l, rfl, hp⟩, fun _ => ⟨by omega, by omega, rfl⟩⟩
  rcases h with ⟨rfl, rfl⟩ | ⟨l, rfl, hp⟩
  · have := key (List.replicate g none) (by rw [recs_replicate]) (by simpa using hg)
    simp only [newEntry, allocMore, empty, Nat.le_refl, if_true, hg]
    simp only [List.length_replicate, List.length_nil, if_true] at this ⊢
    obtain ⟨ok, db', a, b, c⟩ := this
    exact ⟨ok, db', a, b, fun h => absurd (c h).1 (by omega)⟩
  · have hlen := hp.length_eq
    by_cases hfull : l.length ≤ t.length
    · have := key (l ++ List.replicate g none) (by rw [recs_append, recs_replicate, List.append_nil]; exact hp)
        (by have := recs_length_le l; simp; omega)
      have hle := recs_length_le l
      have hlt : t.length < l.length + g := by omega
      simp only [newEntry, allocMore, hfull, if_true, hlt]
      simp only [List.length_append, List.length_replicate] at this
      obtain ⟨ok, db', a, b, c⟩ := this
      refine ⟨ok, db', a, b, fun h => ?_⟩
      exfalso
      -- the first new place is free, and it is the first one that is read
      have hs : search (l ++ List.replicate g none) (l.length + g) (if t.length = 0 then 2 ^ 32 - 1 else t.length - 1) (l.length + g + 1) t.length = some (some t.length) := by
        have e : (l ++ List.replicate g none)[t.length]? = some none := by
          rw [List.getElem?_append_right (by omega), List.getElem?_replicate, if_pos (by omega)]
        have hne : t.length ≠ (if t.length = 0 then 2 ^ 32 - 1 else t.length - 1) := by
          split <;> rename_i h0
          · rw [h0]; decide
          · omega
        rw [search, if_pos hne, e]
      rw [hs] at a
      simp only [Option.some.injEq, Prod.mk.injEq] at a
      rw [h] at a
      exact absurd a.1 (by simp)
    · have := key l hp (by omega)
      have hlt : t.length < l.length := by omega
      simp only [newEntry, allocMore, hfull, if_false, if_true, hlt]
      exact this

theorem rep_scan {db : Db} {t : Table} (h : Rep db t) (p : Rec → Bool) :
    ∃ o, scan db.entries db.max p db.max 0 = some o ∧
      ((db = empty ∧ t = [] ∧ o = none) ∨ ∃ l, db = ⟨some l, t.length, l.length⟩ ∧ (recs l).Perm t ∧ o.map (·.2) = (recs l).find? p ∧
        ∀ x, o = some x → l[x.1]? = some (some x.2)) := by
  rcases h with ⟨rfl, rfl⟩ | ⟨l, rfl, hp⟩
  · exact ⟨none, rfl, Or.inl ⟨rfl, rfl, rfl⟩⟩
  · obtain ⟨o, h1, h2, h3⟩ := scan_spec l p l.length 0 (by omega)
    exact ⟨o, h1, Or.inr ⟨l, rfl, hp, h2, h3⟩⟩

theorem filter_perm_of_take {l t : List Rec} {r : Rec} (hp : (r :: l).Perm t) (hd : (t.map (·.id)).Nodup) :
    l.Perm (t.filter fun x => x.id ≠ r.id) := by
  have h1 := hp.filter (fun x => decide (x.id ≠ r.id))
  have hd' : ((r :: l).map (·.id)).Nodup := (hp.map _).nodup_iff.mpr hd
  rw [List.filter_cons, if_neg (by simp), List.filter_eq_self.mpr] at h1
  · exact h1
  · intro a ha
    simp only [List.map_cons, List.nodup_cons, List.mem_map, not_exists, not_and] at hd'
    simpa using hd'.1 a ha

theorem lookup_none_filter {t : Table} {i : Nat} (h : lookup t i = none) : (t.filter fun x => x.id ≠ i) = t := by
  rw [List.filter_eq_self]
  intro a ha
  unfold lookup at h
  rw [List.find?_eq_none] at h
  have := h a ha
  simpa using this

theorem rep_remove (i : Nat) (db : Db) (t : Table) (h : Rep db t) (hd : (t.map (·.id)).Nodup) :
    ∃ db', removeEntry i db = some (lookup t i, db') ∧ ∀ b, Rep db' (step t (.remove i) b) := by
  obtain ⟨o, ho, hc⟩ := rep_scan h fun r => r.id == i
  unfold removeEntry
  rw [ho]
  rcases hc with ⟨rfl, rfl, rfl⟩ | ⟨l, rfl, hp, hm, hx⟩
  · exact ⟨empty, rfl, fun _ => Or.inl ⟨rfl, rfl⟩⟩
  · have hl := lookup_perm hp hd i
    rcases o with _ | ⟨k, r⟩
    · have hn : lookup t i = none := by rw [← hl]; exact hm.symm
      refine ⟨_, by rw [hn]; rfl, fun b => ?_⟩
      show Rep _ (t.filter fun x => x.id ≠ i)
      rw [lookup_none_filter hn]
      exact Or.inr ⟨l, rfl, hp⟩
    · have hn : lookup t i = some r := by rw [← hl]; exact hm.symm
      have hid : r.id = i := by
        unfold lookup at hn
        have := List.find?_some hn
        simpa using this
      subst hid
      have htake := recs_take l k r (hx (k, r) rfl)
      have hperm := filter_perm_of_take (htake.trans hp) hd
      have hlen : t.length = (t.filter fun x => x.id ≠ r.id).length + 1 := by
        have h1 := (htake.trans hp).length_eq
        have h2 := hperm.length_eq
        simp only [List.length_cons] at h1
        omega
      rw [hn]
      simp only [Option.map_some]
      by_cases h0 : t.length - 1 = 0
      · rw [if_pos h0]
        refine ⟨_, rfl, fun b => Or.inl ⟨rfl, ?_⟩⟩
        show (t.filter fun x => x.id ≠ r.id) = []
        exact List.eq_nil_of_length_eq_zero (by omega)
      · rw [if_neg h0]
        refine ⟨_, rfl, fun b => Or.inr ⟨l.set k none, ?_, hperm⟩⟩
        show _ = (⟨some (l.set k none), (t.filter fun x => x.id ≠ r.id).length, _⟩ : Db)
        rw [List.length_set, show t.length - 1 = (t.filter fun x => x.id ≠ r.id).length by omega]

theorem rep_getInfo (i : Nat) (db : Db) (t : Table) (h : Rep db t) (hd : (t.map (·.id)).Nodup) : getInfo i db = some (lookup t i) := by
  obtain ⟨o, ho, hc⟩ := rep_scan h fun r => r.id == i
  unfold getInfo
  rw [ho]
  rcases hc with ⟨rfl, rfl, rfl⟩ | ⟨l, rfl, hp, hm, hx⟩
  · rfl
  · rw [← lookup_perm hp hd i, Option.map_some, hm]; rfl

theorem rep_find (name : List Char) (db : Db) (t : Table) (h : Rep db t) :
    (∃ r, r ∈ t ∧ r.name = some name ∧ find name db = some r.id) ∨ ((∀ r, r ∈ t → r.name ≠ some name) ∧ find name db = some 0) := by
  obtain ⟨o, ho, hc⟩ := rep_scan h fun r => r.name == some name
  unfold find
  rw [ho]
  rcases hc with ⟨rfl, rfl, rfl⟩ | ⟨l, rfl, hp, hm, hx⟩
  · exact Or.inr ⟨by simp, rfl⟩
  · rcases o with _ | ⟨k, r⟩
    · refine Or.inr ⟨fun r hr => ?_, rfl⟩
      have := List.find?_eq_none.mp hm.symm r (hp.mem_iff.mpr hr)
      simpa using this
    · have h1 : List.find? (fun r => r.name == some name) (recs l) = some r := hm.symm
      exact Or.inl ⟨r, hp.mem_iff.mp (List.mem_of_find?_eq_some h1), by simpa using List.find?_some h1, rfl⟩

/-- The order of enumeration. -/
def order (db : Db) : List Rec := recs (db.entries.getD [])

theorem rep_order (db : Db) (t : Table) (h : Rep db t) : (order db).Perm t := by
  rcases h with ⟨rfl, rfl⟩ | ⟨l, rfl, hp⟩
  · exact .refl _
  · exact hp

theorem rep_threadId (k : Nat) (hk : k + 1 < 2 ^ 32) (db : Db) (t : Table) (h : Rep db t) :
    getThreadId k db = some (((order db)[k]?.map (·.id)).getD 0) := by
  unfold getThreadId
  rw [Nat.mod_eq_of_lt hk]
  rcases h with ⟨rfl, rfl⟩ | ⟨l, rfl, hp⟩
  · show (countTo none 0 0 (k + 1) 0).bind _ = _
    simp [countTo, order, empty, recs]
  · obtain ⟨c, i, h1, h2, h3⟩ := countTo_spec l l.length 0 (k + 1) (by omega) (by omega)
    simp only [List.drop_zero, Nat.add_sub_cancel] at h2 h3
    show (countTo (some l) l.length l.length (k + 1) 0).bind _ = some (((recs l)[k]?.map (·.id)).getD 0)
    rw [h1]
    cases hv : (recs l)[k]? with
    | none => simp [h3 hv]
    | some r =>
      obtain ⟨rfl, hi, e⟩ := h2 r hv
      have hi0 : i ≠ 0 := by omega
      simp [hi0, e]

/-- Identifiers stay different. -/
theorem step_nodup (t : Table) (op : Op) (b : Bool) (hd : (t.map (·.id)).Nodup) (hf : ∀ r, op = .new r → lookup t r.id = none) :
    ((step t op b).map (·.id)).Nodup := by
  cases op with
  | new r =>
    cases b with
    | false => exact hd
    | true =>
      show ((r :: t).map (·.id)).Nodup
      rw [List.map_cons, List.nodup_cons]
      refine ⟨?_, hd⟩
      have := hf r rfl
      unfold lookup at this
      rw [List.find?_eq_none] at this
      rw [List.mem_map]
      rintro ⟨x, hx, e⟩
      have := this x hx
      simp [e] at this
  | remove i => exact hd.sublist (List.filter_sublist.map _)

theorem fresh_head {t : Table} {op : Op} {ops : List Op} {a : Bool} {as : List Bool} (h : Fresh t (op :: ops) (a :: as)) :
    (∀ r, op = .new r → lookup t r.id = none) ∧ Fresh (step t op a) ops as := by
  cases op with
  | new r => exact ⟨fun r' e => by cases e; exact h.1, h.2⟩
  | remove i => exact ⟨fun r' e => (by cases e), h⟩

theorem rep_run (g : Nat) (hg : 0 < g) : ∀ (ops : List Op) (db : Db) (t : Table) (ans : List Bool) (db' : Db),
    run g ops db = some (ans, db') → Rep db t → (t.map (·.id)).Nodup → Fresh t ops ans →
    Rep db' (steps t ops ans) ∧ ((steps t ops ans).map (·.id)).Nodup
  | [], db, t, ans, db', h, hr, hd, _ => by
    simp only [run, Option.some.injEq, Prod.mk.injEq] at h
    obtain ⟨rfl, rfl⟩ := h
    exact ⟨hr, hd⟩
  | .new r :: ops, db, t, ans, db', h, hr, hd, hf => by
    obtain ⟨ok, d1, h1, h2, -⟩ := rep_new g hg r db t hr
    simp only [run, h1, Option.bind_some] at h
    cases hn : run g ops d1 with
    | none => simp [hn] at h
    | some y =>
      simp only [hn, Option.map_some, Option.some.injEq, Prod.mk.injEq] at h
      obtain ⟨rfl, rfl⟩ := h
      obtain ⟨f1, f2⟩ := fresh_head hf
      exact rep_run g hg ops d1 _ y.1 y.2 hn h2 (step_nodup t _ ok hd f1) f2
  | .remove i :: ops, db, t, ans, db', h, hr, hd, hf => by
    obtain ⟨d1, h1, h2⟩ := rep_remove i db t hr hd
    simp only [run, h1, Option.bind_some] at h
    cases hn : run g ops d1 with
    | none => simp [hn] at h
    | some y =>
      simp only [hn, Option.map_some, Option.some.injEq, Prod.mk.injEq] at h
      obtain ⟨rfl, rfl⟩ := h
      obtain ⟨f1, f2⟩ := fresh_head hf
      exact rep_run g hg ops d1 _ y.1 y.2 hn (h2 _) (step_nodup t _ _ hd f1) f2

/-- A weaker invariant, for the histories with any identifiers. -/
def Sound (db : Db) : Prop := ∃ t, Rep db t

theorem sound_run (g : Nat) (hg : 0 < g) : ∀ (ops : List Op) (db : Db), Sound db → ∃ ans db', run g ops db = some (ans, db') ∧
    ans.length = ops.length ∧ Sound db'
  | [], db, h => ⟨[], db, rfl, rfl, h⟩
  | .new r :: ops, db, ⟨t, hr⟩ => by
    obtain ⟨ok, d1, h1, h2, -⟩ := rep_new g hg r db t hr
    obtain ⟨ans, d2, e, el, s⟩ := sound_run g hg ops d1 ⟨_, h2⟩
    exact ⟨ok :: ans, d2, by simp [run, h1, e], by simp [el], s⟩
  | .remove i :: ops, db, ⟨t, hr⟩ => by
    have : ∃ o d1, removeEntry i db = some (o, d1) ∧ Sound d1 := by
      obtain ⟨o, ho, hc⟩ := rep_scan hr fun r => r.id == i
      unfold removeEntry
      rw [ho]
      rcases hc with ⟨rfl, rfl, rfl⟩ | ⟨l, rfl, hp, hm, hx⟩
      · exact ⟨_, _, rfl, [], Or.inl ⟨rfl, rfl⟩⟩
      · rcases o with _ | ⟨k, r⟩
        · exact ⟨_, _, rfl, t, Or.inr ⟨l, rfl, hp⟩⟩
        · simp only [Option.map_some]
          by_cases h0 : t.length - 1 = 0
          · rw [if_pos h0]; exact ⟨_, _, rfl, [], Or.inl ⟨rfl, rfl⟩⟩
          · rw [if_neg h0]
            refine ⟨_, _, rfl, recs (l.set k none), Or.inr ⟨l.set k none, ?_, .refl _⟩⟩
            have h1 := ((recs_take l k r (hx (k, r) rfl)).trans hp).length_eq
            simp only [List.length_cons] at h1
            rw [List.length_set, show t.length - 1 = (recs (l.set k none)).length by omega]
    obtain ⟨o, d1, h1, s1⟩ := this
    obtain ⟨ans, d2, e, el, s⟩ := sound_run g hg ops d1 s1
    exact ⟨o.isSome :: ans, d2, by simp [run, h1, e], by simp [el], s⟩

/-- Only insertions: the array is filled from its start. -/
theorem run_news (g : Nat) (hg : 0 < g) : ∀ (rs : List Rec) (l : List Rec) (k : Nat) (_ : l ≠ [] ∨ 0 < k),
    ∃ (l' : List Rec) (k' : Nat), run g (rs.map .new) ⟨some (l.map some ++ List.replicate k none), l.length, l.length + k⟩ =
      some (List.replicate rs.length true, ⟨some (l'.map some ++ List.replicate k' none), l'.length, l'.length + k'⟩)
  | [], l, k, _ => ⟨l, k, rfl⟩
  | r :: rs, l, k, _ => by
    have step1 : ∃ k1, newEntry g true r ⟨some (l.map some ++ List.replicate k none), l.length, l.length + k⟩ =
        some (true, ⟨some ((l ++ [r]).map some ++ List.replicate k1 none), (l ++ [r]).length, (l ++ [r]).length + k1⟩) := by
      have hput : ∀ k1, search (l.map some ++ List.replicate (k1 + 1) none) (l.length + (k1 + 1)) (if l.length = 0 then 2 ^ 32 - 1 else l.length - 1)
          (l.length + (k1 + 1) + 1) l.length = some (some l.length) := by
        intro k1
        have e : (l.map some ++ List.replicate (k1 + 1) (none : Option Rec))[l.length]? = some none := by
          rw [List.getElem?_append_right (by simp), List.getElem?_replicate, if_pos (by simp)]
        have hne : l.length ≠ (if l.length = 0 then 2 ^ 32 - 1 else l.length - 1) := by
          split <;> rename_i h0
          · rw [h0]; decide
          · omega
        rw [search, if_pos hne, e]
      have hset : ∀ k1, (l.map some ++ List.replicate (k1 + 1) (none : Option Rec)).set l.length (some r) =
          (l ++ [r]).map some ++ List.replicate k1 none := by
        intro k1
        rw [List.set_append_right _ _ (by simp), List.length_map, Nat.sub_self, List.replicate_succ, List.set_cons_zero]
        simp
      cases k with
      | zero =>
        obtain ⟨g1, rfl⟩ : ∃ g1, g = g1 + 1 := ⟨g - 1, by omega⟩
        refine ⟨g1, ?_⟩
        have h1 := hput g1
        have h2 := hset g1
        simp only [newEntry, allocMore, Nat.add_zero, Nat.le_refl, if_true, List.replicate_zero, List.append_nil]
        rw [if_pos (by omega : l.length < l.length + (g1 + 1))]
        simp only [h1, h2]
        simp; omega
      | succ k1 =>
        refine ⟨k1, ?_⟩
        have h1 := hput k1
        have h2 := hset k1
        have hnf : ¬ (l.length + (k1 + 1) ≤ l.length) := by omega
        simp only [newEntry, allocMore, hnf, if_false, if_true]
        rw [if_pos (by omega : l.length < l.length + (k1 + 1))]
        simp only [h1, h2]
        simp; omega
    obtain ⟨k1, e1⟩ := step1
    obtain ⟨l', k', e2⟩ := run_news g hg rs (l ++ [r]) k1 (Or.inl (by simp))
    exact ⟨l', k', by simp only [List.map_cons, run, e1, Option.bind_some, e2, Option.map_some, List.length_cons, List.replicate_succ]⟩

end Verif.ThreadsDb
