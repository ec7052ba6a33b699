import Verif.Model.Reference

namespace Verif.Spec.Ref
open Verif.Ref

/-- Number of existing references to an object. -/
def refsTo (l : List Slot) (o : Nat) : Nat := (l.filter (fun x => x.target = some o)).length

/-- `x` is kept alive, from a variable, by references other than `s`. -/
inductive Held (σ : St) (s : Nat) : Nat → Prop
  | var {v x} : v ∈ σ.slots → v.id ≠ s → v.owner = none → v.target = some x → Held σ s x
  | member {v x y} : v ∈ σ.slots → v.id ≠ s → v.owner = some y → Held σ s y → v.target = some x → Held σ s x

/-- The reference `t` is a variable, or a member of an object kept alive by references other than `s`. -/
def Safe (σ : St) (s t : Nat) : Prop :=
  ∃ x ∈ σ.slots, x.id = t ∧ (x.owner = none ∨ ∃ y, x.owner = some y ∧ Held σ s y)

/-- The calls a correct program may make: references used exist and do not live in an object that the call destroys. -/
def Legal (σ : St) : Op → Prop
  | .new s w => (∀ x ∈ σ.slots, x.id ≠ s) ∧ (∀ y, w = some y → (σ.cnt y).isSome)
  | .create s o => Safe σ s s ∧ σ.cnt o = none ∧ o ∉ σ.log
  | .assign s t => Safe σ s s ∧ Safe σ s t
  | .copy s w t => (∀ x ∈ σ.slots, x.id ≠ s) ∧ (∀ y, w = some y → (σ.cnt y).isSome) ∧ (∃ x ∈ σ.slots, x.id = t)
  | .remove s => Safe σ s s
  | .drop s => ∃ x ∈ σ.slots, x.id = s ∧ x.owner = none
  | .assignRaw s o => Safe σ s s ∧ Held σ s o

/-- All the calls of the history are legal. -/
def AllLegal (σ : St) : List Op → Prop
  | [] => True
  | op :: ops => Legal σ op ∧ ∀ σ', step σ op = some σ' → AllLegal σ' ops

def run (σ : St) : List Op → Option St
  | [] => some σ
  | op :: ops => (step σ op).bind fun σ' => run σ' ops

/-- What the user relies on, in a given store. -/
structure Sound (σ : St) : Prop where
  /-- references have an identity -/
  ids : (σ.slots.map (·.id)).Nodup
  /-- the counter of a live object is the number of existing references to it, and it is not zero: an object without
  references does not exist any more -/
  count : ∀ o c, σ.cnt o = some c → c = refsTo σ.slots o ∧ 0 < c
  /-- no reference designates a destroyed object -/
  target : ∀ x ∈ σ.slots, ∀ o, x.target = some o → (σ.cnt o).isSome
  /-- references that are members exist only as long as their object -/
  owner : ∀ x ∈ σ.slots, ∀ o, x.owner = some o → (σ.cnt o).isSome
  /-- no object has been destroyed twice -/
  once : σ.log.Nodup
  /-- destroyed objects do not exist -/
  dead : ∀ o ∈ σ.log, σ.cnt o = none

end Verif.Spec.Ref

namespace Verif.Ref
open Verif.Spec.Ref

/-- Invariant during a release: `p` is the list of references still to be released. -/
structure Mid (σ : St) (p : List Nat) : Prop where
  ids : (σ.slots.map (·.id)).Nodup
  count : ∀ o c, σ.cnt o = some c → c = refsTo σ.slots o + p.count o ∧ 0 < c
  target : ∀ x ∈ σ.slots, ∀ o, x.target = some o → (σ.cnt o).isSome
  pend : ∀ o ∈ p, (σ.cnt o).isSome
  owner : ∀ x ∈ σ.slots, ∀ o, x.owner = some o → (σ.cnt o).isSome
  once : σ.log.Nodup
  dead : ∀ o ∈ σ.log, σ.cnt o = none

theorem Mid.sound {σ : St} (h : Mid σ []) : Sound σ :=
  ⟨h.ids, fun o c hc => by simpa using h.count o c hc, h.target, h.owner, h.once, h.dead⟩

theorem _root_.Verif.Spec.Ref.Sound.mid {σ : St} (h : Sound σ) : Mid σ [] :=
  ⟨h.ids, fun o c hc => by simpa using h.count o c hc, h.target, by simp, h.owner, h.once, h.dead⟩

theorem count_filterMap (l : List Slot) (o : Nat) : (l.filterMap (·.target)).count o = refsTo l o := by
  unfold refsTo
  induction l with
  | nil => rfl
  | cons a l ih =>
    cases h : a.target with
    | none => simp [h, ih]
    | some y =>
      by_cases hy : y = o
      · subst hy; simp [h, ih]
      · simp [h, hy, ih]

theorem refsTo_partition (l : List Slot) (p : Slot → Bool) (o : Nat) :
    refsTo (l.filter p) o + refsTo (l.filter (fun x => !p x)) o = refsTo l o := by
  unfold refsTo
  induction l with
  | nil => rfl
  | cons a l ih =>
    cases hp : p a <;> by_cases ht : a.target = some o <;> simp_all [List.filter_cons] <;> omega

theorem length_partition (l : List Slot) (o : Nat) : (l.filter (fun x => decide (x.owner ≠ some o))).length +
    (l.filter (fun x => decide (x.owner = some o))).length = l.length := by
  induction l with
  | nil => rfl
  | cons a l ih => by_cases ha : a.owner = some o <;> simp_all [List.filter_cons] <;> omega

theorem refsTo_pos {l : List Slot} {x : Slot} {o : Nat} (hx : x ∈ l) (ht : x.target = some o) : 0 < refsTo l o := by
  unfold refsTo
  exact List.length_pos_of_mem (List.mem_filter.mpr ⟨hx, by simpa using ht⟩)

theorem refsTo_zero {l : List Slot} {o : Nat} (h : refsTo l o = 0) : ∀ x ∈ l, x.target ≠ some o := by
  intro x hx ht
  have := refsTo_pos hx ht
  omega

/-- A set of objects each of which is the target of a surviving reference. -/
def Stable (σ : St) (P : Nat → Prop) : Prop :=
  ∀ x, P x → ∃ v ∈ σ.slots, v.target = some x ∧ ∀ y, v.owner = some y → P y

theorem release_spec (fuel : Nat) (σ : St) (p : List Nat) (h : Mid σ p) (hf : σ.slots.length + p.length ≤ fuel)
    (P : Nat → Prop) (hP : Stable σ P) :
    ∃ σ', release fuel σ p = some σ' ∧ Sound σ' ∧ Stable σ' P ∧
      (∀ x ∈ σ'.slots, x ∈ σ.slots) ∧
      (∀ x ∈ σ.slots, x.owner = none ∨ (∃ y, x.owner = some y ∧ P y) → x ∈ σ'.slots) ∧
      (∀ o, o ∈ σ'.log ∨ (σ'.cnt o).isSome ↔ o ∈ σ.log ∨ (σ.cnt o).isSome) ∧
      (∀ x, P x → (σ.cnt x).isSome → (σ'.cnt x).isSome) := by
  induction fuel generalizing σ p with
  | zero =>
    cases p with
    | nil => exact ⟨σ, by simp [release], h.sound, hP, fun _ h => h, fun _ h _ => h, fun _ => Iff.rfl, fun _ _ h => h⟩
    | cons a p => simp at hf
  | succ fuel ih =>
    cases p with
    | nil => exact ⟨σ, by simp [release], h.sound, hP, fun _ h => h, fun _ h _ => h, fun _ => Iff.rfl, fun _ _ h => h⟩
    | cons o p =>
      obtain ⟨c, hc⟩ := Option.isSome_iff_exists.mp (h.pend o (by simp))
      obtain ⟨hcc, hc0⟩ := h.count o c hc
      simp only [List.count_cons_self] at hcc
      unfold release
      simp only [hc]
      by_cases hz : c - 1 = 0
      · rw [if_pos hz]
        have hr0 : refsTo σ.slots o = 0 := by omega
        have hp0 : p.count o = 0 := by omega
        have hnP : ¬ P o := by
          intro hPo
          obtain ⟨v, hv, ht, -⟩ := hP o hPo
          exact refsTo_zero hr0 v hv ht
        have hpart := refsTo_partition σ.slots (fun x => decide (x.owner ≠ some o))
        have hpart' : ∀ q, refsTo (σ.slots.filter (fun x => decide (x.owner ≠ some o))) q +
            refsTo (σ.slots.filter (fun x => decide (x.owner = some o))) q = refsTo σ.slots q := by
          intro q
          rw [← hpart q]
          congr 2
          apply List.filter_congr
          intro x _
          by_cases hx : x.owner = some o <;> simp [hx]
        have hlen : (σ.slots.filter (fun x => decide (x.owner ≠ some o))).length +
            ((σ.slots.filter (fun x => decide (x.owner = some o))).filterMap (·.target)).length ≤ σ.slots.length := by
          have h1 := List.length_filterMap_le (·.target) (σ.slots.filter (fun x => decide (x.owner = some o)))
          have h2 : (σ.slots.filter (fun x => decide (x.owner ≠ some o))).length +
            (σ.slots.filter (fun x => decide (x.owner = some o))).length = σ.slots.length := by
            exact length_partition σ.slots o
          omega
        have hmid : Mid { cnt := setCnt σ.cnt o none, slots := σ.slots.filter (fun x => x.owner ≠ some o), log := o :: σ.log }
            ((σ.slots.filter (fun x => x.owner = some o)).filterMap (·.target) ++ p) := by
          refine ⟨?_, ?_, ?_, ?_, ?_, ?_, ?_⟩
          · exact (List.Sublist.map _ List.filter_sublist).nodup h.ids
          · intro q d hq
            simp only [setCnt] at hq
            by_cases hqo : q = o
            · rw [if_pos hqo] at hq; cases hq
            · rw [if_neg hqo] at hq
              obtain ⟨h1, h2⟩ := h.count q d hq
              refine ⟨?_, h2⟩
              rw [List.count_append, count_filterMap, ← Nat.add_assoc, hpart' q, h1,
                List.count_cons_of_ne (fun e => hqo e.symm)]
          · intro x hx q hq
            have hx' := (List.mem_filter.mp hx).1
            have : q ≠ o := by rintro rfl; exact refsTo_zero hr0 x hx' hq
            simp only [setCnt, this, if_false]
            exact h.target x hx' q hq
          · intro q hq
            have hqo : q ≠ o := by
              rintro rfl
              rcases List.mem_append.mp hq with hq | hq
              · obtain ⟨x, hx, hxt⟩ := List.mem_filterMap.mp hq
                exact refsTo_zero hr0 x (List.mem_filter.mp hx).1 hxt
              · exact absurd (List.count_pos_iff.mpr hq) (by omega)
            simp only [setCnt, hqo, if_false]
            rcases List.mem_append.mp hq with hq | hq
            · obtain ⟨x, hx, hxt⟩ := List.mem_filterMap.mp hq
              exact h.target x (List.mem_filter.mp hx).1 q hxt
            · exact h.pend q (List.mem_cons_of_mem _ hq)
          · intro x hx q hq
            have hx' := List.mem_filter.mp hx
            have : q ≠ o := by rintro rfl; simp [hq] at hx'
            simp only [setCnt, this, if_false]
            exact h.owner x hx'.1 q hq
          · refine List.nodup_cons.mpr ⟨?_, h.once⟩
            intro ho
            have := h.dead o ho
            rw [hc] at this; cases this
          · intro q hq
            simp only [setCnt]
            by_cases hqo : q = o
            · rw [if_pos hqo]
            · rw [if_neg hqo]
              rcases List.mem_cons.mp hq with e | hq
              · exact absurd e hqo
              · exact h.dead q hq
        have hst : Stable { cnt := setCnt σ.cnt o none, slots := σ.slots.filter (fun x => x.owner ≠ some o), log := o :: σ.log } P := by
          intro x hx
          obtain ⟨v, hv, ht, ho⟩ := hP x hx
          refine ⟨v, List.mem_filter.mpr ⟨hv, ?_⟩, ht, ho⟩
          simp only [decide_eq_true_eq]
          intro hvo
          exact hnP (ho o hvo)
        obtain ⟨σ', e, hs, hst', h1, h2, h3, h4⟩ := ih _ _ hmid (by
          simp only [List.length_append, List.length_cons] at hf ⊢; omega) hst
        refine ⟨σ', e, hs, hst', fun x hx => (List.mem_filter.mp (h1 x hx)).1, ?_, ?_, ?_⟩
        · intro x hx hxo
          apply h2 x _ hxo
          refine List.mem_filter.mpr ⟨hx, ?_⟩
          simp only [decide_eq_true_eq]
          rcases hxo with hxo | ⟨y, hy, hyP⟩
          · rw [hxo]; simp
          · rw [hy]; simp; rintro rfl; exact hnP hyP
        · intro q
          rw [h3 q]
          simp only [List.mem_cons, setCnt]
          by_cases hqo : q = o
          · subst hqo; simp [hc]
          · simp [hqo]
        · intro x hx hcx
          apply h4 x hx
          have : x ≠ o := by rintro rfl; exact hnP hx
          simpa [setCnt, this] using hcx
      · rw [if_neg hz]
        have hmid : Mid { σ with cnt := setCnt σ.cnt o (some (c - 1)) } p := by
          refine ⟨h.ids, ?_, ?_, ?_, ?_, h.once, ?_⟩
          · intro q d hq
            simp only [setCnt] at hq
            by_cases hqo : q = o
            · rw [if_pos hqo] at hq
              simp only [Option.some.injEq] at hq
              subst hqo; simp only; omega
            · rw [if_neg hqo] at hq
              have := h.count q d hq
              rwa [List.count_cons_of_ne (fun e => hqo e.symm)] at this
          · intro x hx q hq
            simp only [setCnt]; split
            · rfl
            · exact h.target x hx q hq
          · intro q hq
            simp only [setCnt]; split
            · rfl
            · exact h.pend q (List.mem_cons_of_mem _ hq)
          · intro x hx q hq
            simp only [setCnt]; split
            · rfl
            · exact h.owner x hx q hq
          · intro q hq
            have := h.dead q hq
            simp only [setCnt]
            by_cases hqo : q = o
            · subst hqo; rw [hc] at this; cases this
            · rw [if_neg hqo]; exact this
        obtain ⟨σ', e, hs, hst', h1, h2, h3, h4⟩ := ih _ _ hmid (by simp only [List.length_cons] at hf ⊢; omega) hP
        refine ⟨σ', e, hs, hst', h1, h2, ?_, ?_⟩
        · intro q
          rw [h3 q]
          simp only [setCnt]
          by_cases hqo : q = o
          · subst hqo; simp [hc]
          · simp [hqo]
        · intro x hx hcx
          apply h4 x hx
          simp only [setCnt]; split
          · rfl
          · exact hcx

theorem find_mem {σ : St} {s : Nat} {x : Slot} (h : σ.find s = some x) : x ∈ σ.slots ∧ x.id = s :=
  ⟨List.mem_of_find?_eq_some h, by simpa using List.find?_some (p := fun y : Slot => y.id == s) h⟩

theorem mem_unique {l : List Slot} (h : (l.map (·.id)).Nodup) {x y : Slot} (hx : x ∈ l) (hy : y ∈ l)
    (he : x.id = y.id) : x = y := by
  induction l with
  | nil => cases hx
  | cons a l ih =>
    simp only [List.map_cons, List.nodup_cons, List.mem_map, not_exists, not_and] at h
    rcases List.mem_cons.mp hx with h1 | h1 <;> rcases List.mem_cons.mp hy with h2 | h2
    · rw [h1, h2]
    · subst h1; exact absurd he.symm (h.1 y h2)
    · subst h2; exact absurd he (h.1 x h1)
    · exact ih h.2 h1 h2

theorem find_of_mem {σ : St} (h : (σ.slots.map (·.id)).Nodup) {x : Slot} (hx : x ∈ σ.slots) : σ.find x.id = some x := by
  have hs : (σ.find x.id).isSome := by
    unfold St.find; rw [List.find?_isSome]; exact ⟨x, hx, by simp⟩
  obtain ⟨y, hy⟩ := Option.isSome_iff_exists.mp hs
  obtain ⟨h1, h2⟩ := find_mem hy
  rw [hy, mem_unique h h1 hx h2]

theorem ids_setTarget (σ : St) (s : Nat) (t : Option Nat) :
    (σ.setTarget s t).slots.map (·.id) = σ.slots.map (·.id) := by
  simp only [St.setTarget, List.map_map]
  apply List.map_congr_left
  intro x _
  simp only [Function.comp]
  split <;> rfl

/-- Changing the target of one reference changes the number of references accordingly. -/
theorem refsTo_set (l : List Slot) (h : (l.map (·.id)).Nodup) (x : Slot) (hx : x ∈ l) (t : Option Nat) (o : Nat) :
    refsTo (l.map (fun y => if y.id = x.id then { y with target := t } else y)) o + (if x.target = some o then 1 else 0) =
      refsTo l o + (if t = some o then 1 else 0) := by
  induction l with
  | nil => cases hx
  | cons a l ih =>
    simp only [List.map_cons, List.nodup_cons, List.mem_map, not_exists, not_and] at h
    by_cases ha : a.id = x.id
    · have hax : a = x := by
        rcases List.mem_cons.mp hx with rfl | hx
        · rfl
        · exact absurd ha.symm (h.1 x hx)
      subst hax
      have hid : l.map (fun y => if y.id = a.id then { y with target := t } else y) = l := by
        conv => rhs; rw [← List.map_id l]
        apply List.map_congr_left
        intro y hy
        rw [if_neg (h.1 y hy)]; rfl
      simp only [List.map_cons, if_true, hid, refsTo, List.filter_cons]
      by_cases h1 : a.target = some o <;> by_cases h2 : t = some o <;> simp [h1, h2]
    · have hx' : x ∈ l := by
        rcases List.mem_cons.mp hx with rfl | hx
        · exact absurd rfl ha
        · exact hx
      have := ih h.2 hx'
      simp only [List.map_cons, ha, if_false, refsTo, List.filter_cons] at this ⊢
      by_cases h1 : a.target = some o <;> simp [h1] <;> omega

theorem mem_setTarget {σ : St} {s : Nat} {t : Option Nat} {x : Slot} (hx : x ∈ (σ.setTarget s t).slots) :
    ∃ y ∈ σ.slots, x.id = y.id ∧ x.owner = y.owner ∧ (x = y ∨ y.id = s ∧ x.target = t) := by
  simp only [St.setTarget, List.mem_map] at hx
  obtain ⟨y, hy, rfl⟩ := hx
  refine ⟨y, hy, ?_⟩
  split
  · next h => exact ⟨rfl, rfl, .inr ⟨h, rfl⟩⟩
  · exact ⟨rfl, rfl, .inl rfl⟩

theorem setTarget_mem {σ : St} {s : Nat} {t : Option Nat} {x : Slot} (hx : x ∈ σ.slots) (hne : x.id ≠ s) :
    x ∈ (σ.setTarget s t).slots := by
  simp only [St.setTarget, List.mem_map]
  exact ⟨x, hx, by rw [if_neg hne]⟩

/-- The objects kept alive by other references than `s`. -/
theorem held_stable (σ : St) (s : Nat) (t : Option Nat) : Stable (σ.setTarget s t) (Held σ s) := by
  intro x hx
  cases hx with
  | var hv hne ho ht => exact ⟨_, setTarget_mem hv hne, ht, by rw [ho]; intro y hy; cases hy⟩
  | member hv hne ho hy ht =>
    exact ⟨_, setTarget_mem hv hne, ht, by rw [ho]; rintro y ⟨rfl⟩; exact hy⟩

/-- The store is sound except that some new objects (`fresh`) have no reference yet. -/
structure Sound' (σ : St) (fresh : Nat → Prop) : Prop where
  ids : (σ.slots.map (·.id)).Nodup
  count : ∀ o c, σ.cnt o = some c → c = refsTo σ.slots o ∧ (0 < c ∨ fresh o)
  target : ∀ x ∈ σ.slots, ∀ o, x.target = some o → (σ.cnt o).isSome
  owner : ∀ x ∈ σ.slots, ∀ o, x.owner = some o → (σ.cnt o).isSome
  once : σ.log.Nodup
  dead : ∀ o ∈ σ.log, σ.cnt o = none

theorem remove_spec {σ : St} {s : Nat} (h : Sound σ) (hs : Safe σ s s) :
    ∃ σ', removeReference σ s = some σ' ∧ Sound σ' ∧
      (∃ x ∈ σ'.slots, x.id = s ∧ x.target = none) ∧
      (∀ x ∈ σ'.slots, ∃ y ∈ σ.slots, x.id = y.id ∧ x.owner = y.owner) ∧
      (∀ x ∈ σ.slots, x.id ≠ s → x.owner = none ∨ (∃ y, x.owner = some y ∧ Held σ s y) → x ∈ σ'.slots) ∧
      (∀ o, o ∈ σ'.log ∨ (σ'.cnt o).isSome ↔ o ∈ σ.log ∨ (σ.cnt o).isSome) ∧
      (∀ x, Held σ s x → (σ'.cnt x).isSome) ∧
      (∀ x ∈ σ.slots, x.id = s → ∃ y ∈ σ'.slots, y.id = s ∧ y.owner = x.owner) := by
  obtain ⟨x, hx, hxs, hxo⟩ := hs
  have hheld : ∀ y, Held σ s y → (σ.cnt y).isSome := by
    intro y hy
    cases hy with
    | var hv _ _ ht => exact h.target _ hv _ ht
    | member hv _ _ _ ht => exact h.target _ hv _ ht
  unfold removeReference
  have hf : σ.find s = some x := hxs ▸ find_of_mem h.ids hx
  rw [hf, Option.bind_some]
  cases ht : x.target with
  | none =>
    refine ⟨σ, rfl, h, ⟨x, hx, hxs, ht⟩, fun y hy => ⟨y, hy, rfl, rfl⟩, fun y hy _ _ => hy, fun _ => Iff.rfl, hheld, ?_⟩
    intro y hy hys
    exact ⟨y, hy, hys, rfl⟩
  | some o =>
    simp only
    have hset : ∀ q, refsTo (σ.setTarget s none).slots q + (if q = o then 1 else 0) = refsTo σ.slots q := by
      intro q
      have := refsTo_set σ.slots h.ids x hx none q
      rw [hxs] at this
      simp only [ht, Option.some.injEq, reduceCtorEq, if_false, Nat.add_zero] at this
      rw [← this]
      simp only [St.setTarget]
      congr 1
      by_cases hq : q = o
      · subst hq; simp
      · have : ¬ o = q := fun e => hq e.symm
        simp [hq, this]
    have hmid : Mid (σ.setTarget s none) [o] := by
      refine ⟨by rw [ids_setTarget]; exact h.ids, ?_, ?_, ?_, ?_, h.once, h.dead⟩
      · intro q c hc
        obtain ⟨h1, h2⟩ := h.count q c hc
        refine ⟨?_, h2⟩
        rw [h1, ← hset q]
        by_cases hq : q = o
        · subst hq; simp
        · have : ¬ o = q := fun e => hq e.symm
          simp [hq, this]
      · intro y hy q hq
        obtain ⟨z, hz, -, -, hc⟩ := mem_setTarget hy
        rcases hc with rfl | ⟨-, hc⟩
        · exact h.target _ hz q hq
        · rw [hc] at hq; cases hq
      · intro q hq
        simp only [List.mem_singleton] at hq; subst hq
        exact h.target x hx q ht
      · intro y hy q hq
        obtain ⟨z, hz, -, ho, -⟩ := mem_setTarget hy
        exact h.owner z hz q (ho ▸ hq)
    obtain ⟨σ', e, hs', -, h1, h2, h3, h4⟩ := release_spec σ.fuel (σ.setTarget s none) [o] hmid
      (by simp [St.fuel, St.setTarget]) (Held σ s) (held_stable σ s none)
    have hxnew : { x with target := none } ∈ (σ.setTarget s none).slots := by
      simp only [St.setTarget, List.mem_map]
      exact ⟨x, hx, by rw [if_pos hxs]⟩
    have hxin := h2 _ hxnew hxo
    have hfin : σ'.find s = some { x with target := none } := by
      have := find_of_mem hs'.ids hxin
      simpa only [hxs] using this
    rw [e, Option.bind_some, hfin, Option.map_some]
    refine ⟨σ', rfl, hs', ⟨_, hxin, hxs, rfl⟩, ?_, ?_, h3, fun y hy => h4 y hy (hheld y hy), ?_⟩
    · intro y hy
      obtain ⟨z, hz, h5, h6, -⟩ := mem_setTarget (h1 y hy)
      exact ⟨z, hz, h5, h6⟩
    · intro y hy hne ho
      exact h2 y (setTarget_mem hy hne) ho
    · intro y hy hys
      have : y = x := mem_unique h.ids hy hx (by rw [hys, hxs])
      subst this
      exact ⟨_, hxin, hxs, rfl⟩

theorem pointTo_spec {σ : St} {s o : Nat} (h : Sound' σ (· = o)) (hs : ∃ x ∈ σ.slots, x.id = s ∧ x.target = none)
    (ho : (σ.cnt o).isSome) :
    ∃ σ', pointTo σ s o = some σ' ∧ Sound σ' := by
  obtain ⟨x, hx, hxs, ht⟩ := hs
  obtain ⟨c, hc⟩ := Option.isSome_iff_exists.mp ho
  have hf : σ.find s = some x := hxs ▸ find_of_mem h.ids hx
  refine ⟨_, by simp only [pointTo, hf, Option.bind_some, hc, Option.map_some]; rfl, ?_⟩
  have hset : ∀ q, refsTo (σ.setTarget s (some o)).slots q = refsTo σ.slots q + (if o = q then 1 else 0) := by
    intro q
    have := refsTo_set σ.slots h.ids x hx (some o) q
    rw [hxs] at this
    simp only [ht, Option.some.injEq, reduceCtorEq, if_false, Nat.add_zero] at this
    exact this
  refine ⟨(ids_setTarget σ s (some o)).symm ▸ h.ids, ?_, ?_, ?_, h.once, ?_⟩
  · intro q d hq
    simp only [setCnt] at hq
    rw [show ({ σ.setTarget s (some o) with cnt := setCnt σ.cnt o (some (c + 1)) } : St).slots =
      (σ.setTarget s (some o)).slots from rfl, hset q]
    by_cases hqo : q = o
    · rw [if_pos hqo] at hq
      subst hqo
      have := h.count q c hc
      simp only [Option.some.injEq] at hq
      simp; omega
    · rw [if_neg hqo] at hq
      have := h.count q d hq
      have hne : ¬ o = q := fun e => hqo e.symm
      simp [hne]; omega
  · intro y hy q hq
    obtain ⟨z, hz, -, -, hc'⟩ := mem_setTarget hy
    simp only [setCnt]
    split
    · rfl
    · next hqo =>
      rcases hc' with rfl | ⟨-, hc'⟩
      · exact h.target _ hz q hq
      · rw [hc'] at hq; simp only [Option.some.injEq] at hq; exact absurd hq.symm hqo
  · intro y hy q hq
    obtain ⟨z, hz, -, ho', -⟩ := mem_setTarget hy
    simp only [setCnt]
    split
    · rfl
    · exact h.owner z hz q (ho' ▸ hq)
  · intro q hq
    have := h.dead q hq
    simp only [setCnt]
    by_cases hqo : q = o
    · subst hqo; rw [hc] at this; cases this
    · rw [if_neg hqo]; exact this

theorem _root_.Verif.Spec.Ref.Sound.sound' {σ : St} {F : Nat → Prop} (h : Sound σ) : Sound' σ F :=
  ⟨h.ids, fun o c hc => ⟨(h.count o c hc).1, .inl (h.count o c hc).2⟩, h.target, h.owner, h.once, h.dead⟩

theorem pointTo_objs {σ σ' : St} {s o : Nat} (e : pointTo σ s o = some σ') (q : Nat) :
    q ∈ σ'.log ∨ (σ'.cnt q).isSome ↔ q ∈ σ.log ∨ (σ.cnt q).isSome := by
  unfold pointTo at e
  cases hf : σ.find s with
  | none => rw [hf] at e; cases e
  | some x =>
    rw [hf, Option.bind_some] at e
    cases hc : σ.cnt o with
    | none => rw [hc] at e; cases e
    | some c =>
      rw [hc, Option.map_some] at e
      simp only [Option.some.injEq] at e
      subst e
      simp only [setCnt, St.setTarget]
      by_cases hq : q = o
      · subst hq; simp [hc]
      · simp [hq]

theorem addSlot_sound {σ : St} (h : Sound σ) (s : Nat) (w : Option Nat) (hs : ∀ x ∈ σ.slots, x.id ≠ s)
    (hw : ∀ y, w = some y → (σ.cnt y).isSome) : Sound (addSlot σ s w) := by
  refine ⟨?_, ?_, ?_, ?_, h.once, h.dead⟩
  · simp only [addSlot, List.map_cons, List.nodup_cons, List.mem_map, not_exists, not_and]
    exact ⟨hs, h.ids⟩
  · intro o c hc
    have := h.count o c hc
    simpa [addSlot, refsTo] using this
  · intro x hx o ho
    rcases List.mem_cons.mp hx with rfl | hx
    · cases ho
    · exact h.target x hx o ho
  · intro x hx o ho
    rcases List.mem_cons.mp hx with rfl | hx
    · exact hw o ho
    · exact h.owner x hx o ho

theorem assign_spec {σ : St} {s t : Nat} (h : Sound σ) (hs : Safe σ s s) (ht : Safe σ s t) :
    ∃ σ', assign σ s t = some σ' ∧ Sound σ' ∧
      (∀ o, o ∈ σ'.log ∨ (σ'.cnt o).isSome ↔ o ∈ σ.log ∨ (σ.cnt o).isSome) := by
  unfold assign
  by_cases hst : s = t
  · rw [if_pos hst]; exact ⟨σ, rfl, h, fun _ => Iff.rfl⟩
  · rw [if_neg hst]
    obtain ⟨σ1, e1, hs1, hnull, -, hkeep, hobj, -, -⟩ := remove_spec h hs
    obtain ⟨y, hy, hyt, hyo⟩ := ht
    have hy1 := hkeep y hy (by rw [hyt]; exact fun e => hst e.symm) hyo
    have hf : σ1.find t = some y := hyt ▸ find_of_mem hs1.ids hy1
    rw [e1, Option.bind_some, hf, Option.bind_some]
    cases hyt' : y.target with
    | none => exact ⟨σ1, rfl, hs1, hobj⟩
    | some o =>
      obtain ⟨σ2, e2, hs2⟩ := pointTo_spec (o := o) hs1.sound' hnull (hs1.target y hy1 o hyt')
      exact ⟨σ2, e2, hs2, fun q => (pointTo_objs e2 q).trans (hobj q)⟩

theorem step_sound {σ : St} {op : Op} (h : Sound σ) (hl : Legal σ op) :
    ∃ σ', step σ op = some σ' ∧ Sound σ' ∧
      (∀ o, o ∈ σ.log ∨ (σ.cnt o).isSome → o ∈ σ'.log ∨ (σ'.cnt o).isSome) ∧
      (∀ s o, op = .create s o → (σ'.cnt o).isSome) := by
  cases op with
  | new s w => exact ⟨_, rfl, addSlot_sound h s w hl.1 hl.2, fun _ h => h, by intro _ _ e; cases e⟩
  | create s o =>
    obtain ⟨hs, ho, hlog⟩ := hl
    obtain ⟨σ1, e1, hs1, hnull, -, hkeep, hobj, -, -⟩ := remove_spec h hs
    have ho1 : σ1.cnt o = none ∧ o ∉ σ1.log := by
      have : ¬ (o ∈ σ1.log ∨ (σ1.cnt o).isSome = true) := fun hh => by
        have := (hobj o).mp hh
        simp [ho, hlog] at this
      simp only [not_or, Option.not_isSome_iff_eq_none] at this
      exact ⟨this.2, this.1⟩
    have hfresh : Sound' { σ1 with cnt := setCnt σ1.cnt o (some 0) } (· = o) := by
      refine ⟨hs1.ids, ?_, ?_, ?_, hs1.once, ?_⟩
      · intro q c hc
        simp only [setCnt] at hc
        by_cases hq : q = o
        · rw [if_pos hq] at hc
          simp only [Option.some.injEq] at hc
          refine ⟨?_, .inr hq⟩
          rw [← hc, hq]
          symm
          unfold refsTo
          rw [List.length_eq_zero_iff, List.filter_eq_nil_iff]
          intro x hx hxt
          have := hs1.target x hx o (by simpa using hxt)
          rw [ho1.1] at this; cases this
        · rw [if_neg hq] at hc
          exact ⟨(hs1.count q c hc).1, .inl (hs1.count q c hc).2⟩
      · intro x hx q hq
        simp only [setCnt]; split
        · rfl
        · exact hs1.target x hx q hq
      · intro x hx q hq
        simp only [setCnt]; split
        · rfl
        · exact hs1.owner x hx q hq
      · intro q hq
        have hqo : q ≠ o := by rintro rfl; exact ho1.2 hq
        simp only [setCnt, hqo, if_false]
        exact hs1.dead q hq
    obtain ⟨σ2, e2, hs2⟩ := pointTo_spec hfresh hnull (by simp [setCnt])
    have hobj2 := pointTo_objs e2
    refine ⟨σ2, by simp only [step, e1, Option.bind_some, e2], hs2, ?_, ?_⟩
    · intro q hq
      rw [hobj2 q]
      rcases (hobj q).mpr hq with h1 | h1
      · exact .inl h1
      · right; simp only [setCnt]; split
        · rfl
        · exact h1
    · rintro _ _ ⟨rfl, rfl⟩
      rcases (hobj2 o).mpr (.inr (by simp [setCnt])) with h1 | h1
      · exfalso
        -- the log is unchanged by `pointTo`
        have hlog2 : σ2.log = σ1.log := by
          unfold pointTo at e2
          revert e2
          simp only [Option.bind_eq_some_iff, Option.map_eq_some_iff]
          rintro ⟨x, -, c, -, rfl⟩
          rfl
        rw [hlog2] at h1; exact ho1.2 h1
      · exact h1
  | assign s t =>
    obtain ⟨σ', e, hs, ho⟩ := assign_spec h hl.1 hl.2
    exact ⟨σ', e, hs, fun o h => (ho o).mpr h, by intro _ _ e; cases e⟩
  | copy s w t =>
    obtain ⟨h1, h2, x, hx, hxt⟩ := hl
    have hs := addSlot_sound h s w h1 h2
    have hne : s ≠ t := by rintro rfl; exact h1 x hx hxt
    -- the new reference is invalid: there is nothing to release
    have hfs : (addSlot σ s w).find s = some ⟨s, w, none⟩ := by
      simp [addSlot, St.find]
    have hft : (addSlot σ s w).find t = some x := by
      have := find_of_mem hs.ids (x := x) (List.mem_cons_of_mem _ hx)
      rwa [hxt] at this
    have hrem : removeReference (addSlot σ s w) s = some (addSlot σ s w) := by
      simp [removeReference, hfs]
    simp only [step, assign, hne, if_false, hrem, Option.bind_some, hft]
    cases ht : x.target with
    | none => exact ⟨_, rfl, hs, fun _ h => h, by intro _ _ e; cases e⟩
    | some o =>
      obtain ⟨σ2, e2, hs2⟩ := pointTo_spec (σ := addSlot σ s w) (s := s) (o := o) hs.sound'
        ⟨⟨s, w, none⟩, by simp [addSlot], rfl, rfl⟩ (h.target x hx o ht)
      exact ⟨σ2, e2, hs2, fun q hq => (pointTo_objs e2 q).mpr hq, by intro _ _ e; cases e⟩
  | remove s =>
    obtain ⟨σ1, e1, hs1, -, -, -, hobj, -, -⟩ := remove_spec h hl
    exact ⟨σ1, e1, hs1, fun o h => (hobj o).mpr h, by intro _ _ e; cases e⟩
  | drop s =>
    obtain ⟨x, hx, hxs, hxo⟩ := hl
    obtain ⟨σ1, e1, hs1, ⟨y, hy, hys, hyt⟩, -, -, hobj, -, -⟩ := remove_spec h ⟨x, hx, hxs, .inl hxo⟩
    refine ⟨{ σ1 with slots := σ1.slots.filter (fun x => x.id ≠ s) }, by simp only [step, e1, Option.map_some], ?_, fun o h => (hobj o).mpr h, by intro _ _ e; cases e⟩
    refine ⟨(List.Sublist.map _ List.filter_sublist).nodup hs1.ids, ?_, fun z hz => hs1.target z (List.mem_filter.mp hz).1,
      fun z hz => hs1.owner z (List.mem_filter.mp hz).1, hs1.once, hs1.dead⟩
    intro o c hc
    obtain ⟨h1, h2⟩ := hs1.count o c hc
    refine ⟨?_, h2⟩
    rw [h1]
    unfold refsTo
    congr 1
    rw [List.filter_filter]
    apply List.filter_congr
    intro z hz
    by_cases hzo : z.target = some o
    · have : z.id ≠ s := by
        intro e
        have := mem_unique hs1.ids hz hy (by rw [e, hys])
        rw [this, hyt] at hzo; cases hzo
      simp [hzo, this]
    · simp [hzo]
  | assignRaw s o =>
    obtain ⟨σ1, e1, hs1, hnull, -, -, hobj, hheld, -⟩ := remove_spec h hl.1
    obtain ⟨σ2, e2, hs2⟩ := pointTo_spec (o := o) hs1.sound' hnull (hheld o hl.2)
    exact ⟨σ2, by simp only [step, assignRaw, e1, Option.bind_some, e2], hs2,
      fun q hq => (pointTo_objs e2 q).mpr ((hobj q).mpr hq), by intro _ _ e; cases e⟩

/-- **C08, one thread (partial).**  For every history of legal calls: no undefined behaviour, and in the store reached
(and so in every intermediate one) an object exists exactly as long as there are references to it, its counter is
their number, no reference designates a destroyed object, no object is destroyed twice and every object created either
still exists or has been destroyed.  Missing: assignments whose source lives in the object they destroy
(`c08_assign_from_member_use_after_free`), and concurrent releases (`c08_concurrent_double_delete`). -/
theorem c08_history_partial (ops : List Op) (hl : AllLegal init ops) :
    ∃ σ, Spec.Ref.run init ops = some σ ∧ Sound σ ∧
      (∀ o, (σ.cnt o).isSome ↔ ∃ x ∈ σ.slots, x.target = some o) ∧
      (∀ s o, Op.create s o ∈ ops → o ∈ σ.log ∨ (σ.cnt o).isSome) := by
  have hinit : Sound init := ⟨by simp [init], by simp [init], by simp [init], by simp [init], by simp [init], by simp [init]⟩
  suffices h : ∀ (ops : List Op) (σ : St), Sound σ → AllLegal σ ops → ∃ σ', Spec.Ref.run σ ops = some σ' ∧ Sound σ' ∧
      (∀ o, o ∈ σ.log ∨ (σ.cnt o).isSome → o ∈ σ'.log ∨ (σ'.cnt o).isSome) ∧
      (∀ s o, Op.create s o ∈ ops → o ∈ σ'.log ∨ (σ'.cnt o).isSome) by
    obtain ⟨σ, e, hs, -, hc⟩ := h ops init hinit hl
    refine ⟨σ, e, hs, ?_, hc⟩
    intro o
    constructor
    · intro ho
      obtain ⟨c, hcc⟩ := Option.isSome_iff_exists.mp ho
      obtain ⟨h1, h2⟩ := hs.count o c hcc
      rw [h1] at h2
      unfold refsTo at h2
      obtain ⟨x, hx⟩ := List.exists_mem_of_length_pos h2
      have := List.mem_filter.mp hx
      exact ⟨x, this.1, by simpa using this.2⟩
    · rintro ⟨x, hx, ht⟩; exact hs.target x hx o ht
  intro ops
  induction ops with
  | nil => intro σ hs _; exact ⟨σ, rfl, hs, fun _ h => h, by simp⟩
  | cons op ops ih =>
    intro σ hs hl
    obtain ⟨σ1, e1, hs1, ho1, hc1⟩ := step_sound hs hl.1
    obtain ⟨σ2, e2, hs2, ho2, hc2⟩ := ih σ1 hs1 (hl.2 σ1 e1)
    refine ⟨σ2, by simp [Spec.Ref.run, e1, e2], hs2, fun o h => ho2 o (ho1 o h), ?_⟩
    intro s o hm
    rcases List.mem_cons.mp hm with h | h
    · exact ho2 o (.inr (hc1 s o h.symm))
    · exact hc2 s o h

/-- `NumberOfReferences` counts the references. -/
theorem c08_number_of_references {σ : St} (h : Sound σ) (x : Slot) (hx : x ∈ σ.slots) (o : Nat) (ht : x.target = some o) :
    numberOfReferences σ x.id = some (refsTo σ.slots o) := by
  obtain ⟨c, hc⟩ := Option.isSome_iff_exists.mp (h.target x hx o ht)
  rw [numberOfReferences, find_of_mem h.ids hx, Option.bind_some, ht]
  simp only [hc, (h.count o c hc).1]

/-- A concrete history: a list of two objects, a second reference to the first, and the destruction of the whole. -/
def demo : List Op :=
  [.new 0 none, .create 0 100, .new 1 (some 100), .create 1 200, .copy 2 none 0, .remove 0, .assign 0 1, .drop 2, .drop 0]

example : (Spec.Ref.run init demo).map (fun σ => (σ.log, σ.slots.length)) = some ([200, 100], 0) := by decide
example : (Spec.Ref.run init (demo.take 7)).map (fun σ => (σ.cnt 100, σ.cnt 200)) = some (some 1, some 2) := by decide

/-- The hypothesis of the theorem is met by a history that creates, copies, reassigns and drops. -/
example : AllLegal init [.new 0 none, .create 0 100, .copy 1 none 0, .assign 0 1, .drop 0, .remove 1] := by
  have safe0 : ∀ (σ : St) (s t : Nat) (x : Slot), x ∈ σ.slots → x.id = t → x.owner = none → Safe σ s t :=
    fun σ s t x h1 h2 h3 => ⟨x, h1, h2, .inl h3⟩
  refine ⟨⟨by simp [init], by simp⟩, fun σ e => ?_⟩
  obtain rfl : _ = σ := by simpa [step] using e
  refine ⟨⟨safe0 _ _ _ ⟨0, none, none⟩ (by simp [addSlot]) rfl rfl, rfl, by simp [addSlot, init]⟩, fun σ e => ?_⟩
  obtain rfl : _ = σ := by
    simpa [step, removeReference, addSlot, init, St.find, pointTo, setCnt, St.setTarget] using e
  refine ⟨⟨by simp, by simp, ⟨0, none, some 100⟩, by simp, rfl⟩, fun σ e => ?_⟩
  obtain rfl : _ = σ := by
    simpa [step, assign, removeReference, addSlot, init, St.find, pointTo, setCnt, St.setTarget] using e
  refine ⟨⟨safe0 _ _ _ ⟨0, none, some 100⟩ (by simp) rfl rfl, safe0 _ _ _ ⟨1, none, some 100⟩ (by simp) rfl rfl⟩,
    fun σ e => ?_⟩
  obtain rfl : _ = σ := by
    simpa [step, assign, removeReference, release, St.fuel, addSlot, init, St.find, pointTo, setCnt, St.setTarget] using e
  refine ⟨⟨⟨0, none, some 100⟩, by simp, rfl, rfl⟩, fun σ e => ?_⟩
  obtain rfl : _ = σ := by
    simpa [step, assign, removeReference, release, St.fuel, addSlot, init, St.find, pointTo, setCnt, St.setTarget] using e
  exact ⟨safe0 _ _ _ ⟨1, none, some 100⟩ (by simp) rfl rfl, fun _ _ => trivial⟩

/-- **C08 refuted: `r = r->next`.**  Assigning to a reference from a member of the object it is the last to designate
destroys the member before it is read. -/
theorem c08_assign_from_member_use_after_free :
    Spec.Ref.run init [.new 0 none, .create 0 100, .new 1 (some 100), .create 1 200, .assign 0 1] = none := by decide

/-- **C08 refuted: assigning its own object pointer to the last reference** (`Reference.cpp:81-88`) increments the
counter of a destroyed object. -/
theorem c08_assign_own_pointer_use_after_free :
    Spec.Ref.run init [.new 0 none, .create 0 100, .assignRaw 0 100] = none := by decide

/-! ## Concurrent releases -/

def nReady (σ : CSt) : Nat := σ.pcs.countP (· == .ready)
def nDec (σ : CSt) : Nat := σ.pcs.countP (· == .dec)

structure CInv (σ : CSt) : Prop where
  counter : σ.counter = nReady σ
  early : σ.deletes > 0 → nReady σ = 0
  last : nReady σ = 0 → nDec σ = 0 → σ.pcs ≠ [] → σ.deletes > 0

theorem countP_set {l : List Pc} {i : Nat} {a : Pc} (h : l[i]? = some a) (b : Pc) (p : Pc → Bool) :
    (l.set i b).countP p + (if p a then 1 else 0) = l.countP p + (if p b then 1 else 0) := by
  induction l generalizing i with
  | nil => simp at h
  | cons x l ih =>
    cases i with
    | zero =>
      simp at h; subst h
      simp [List.countP_cons]; omega
    | succ i =>
      have := ih (i := i) (by simpa using h)
      simp [List.countP_cons]; omega

theorem cinv_step {σ : CSt} (h : CInv σ) (i : Nat) : CInv (cstep σ i) := by
  unfold cstep
  cases hp : σ.pcs[i]? with
  | none => exact h
  | some a =>
    have hne : σ.pcs ≠ [] := by intro e; rw [e] at hp; simp at hp
    cases a with
    | ready =>
      have h1 := countP_set hp .dec (· == .ready)
      have h2 := countP_set hp .dec (· == .dec)
      simp at h1 h2
      have hr : 0 < nReady σ := by unfold nReady; omega
      refine ⟨?_, ?_, ?_⟩
      · have := h.counter; simp only [nReady] at *; omega
      · intro hd; have := h.early hd; omega
      · intro _ hd; simp only [nDec] at hd; omega
    | dec =>
      have h1 := countP_set hp .done (· == .ready)
      have h2 := countP_set hp .done (· == .dec)
      simp at h1 h2
      have hc := h.counter
      refine ⟨?_, ?_, ?_⟩
      · simp only [nReady] at *; omega
      · simp only [nReady] at *
        intro hd
        split at hd
        · omega
        · have := h.early hd; simp only [nReady] at this; omega
      · simp only [nReady] at *
        intro hr _ _
        rw [if_pos (by omega)]; omega
    | done => exact h

/-- **C08, concurrent release (partial).**  For any number of threads and any interleaving: the object is never deleted
while some thread still owns a reference, and once all the threads have finished it has been deleted.  Missing: it may
be deleted more than once and its counter read after the deletion. -/
theorem c08_concurrent_release_partial (n : Nat) (hn : 0 < n) (sched : List Nat) :
    let σ := crun (cinit n) sched
    (σ.deletes > 0 → ∀ p ∈ σ.pcs, p ≠ .ready) ∧ ((∀ p ∈ σ.pcs, p = .done) → σ.deletes > 0) := by
  have hinit : CInv (cinit n) := by
    refine ⟨?_, ?_, ?_⟩
    · simp [cinit, nReady, List.countP_replicate]
    · simp [cinit]
    · simp [cinit, nReady]; omega
  have hlen : ∀ (sched : List Nat) (σ : CSt), (crun σ sched).pcs.length = σ.pcs.length := by
    intro sched
    induction sched with
    | nil => intro σ; rfl
    | cons i t ih =>
      intro σ
      rw [show crun σ (i :: t) = crun (cstep σ i) t from rfl, ih]
      unfold cstep
      split <;> simp
  have hinv : ∀ (sched : List Nat) (σ : CSt), CInv σ → CInv (crun σ sched) := by
    intro sched
    induction sched with
    | nil => intro σ h; exact h
    | cons i t ih => intro σ h; exact ih _ (cinv_step h i)
  have h := hinv sched _ hinit
  have hl := hlen sched (cinit n)
  refine ⟨?_, ?_⟩
  · intro hd p hp hpr
    have := h.early hd
    unfold nReady at this
    rw [List.countP_eq_zero] at this
    exact this p hp (by simp [hpr])
  · intro hall
    apply h.last
    · unfold nReady; rw [List.countP_eq_zero]; intro p hp; simp [hall p hp]
    · unfold nDec; rw [List.countP_eq_zero]; intro p hp; simp [hall p hp]
    · intro e; rw [e] at hl; simp [cinit] at hl; omega

/-- **C08 refuted with two threads**: both decrement before either reads the counter, both read zero, the object is
deleted twice. -/
theorem c08_concurrent_double_delete : (cinit 2).deletes = 0 ∧ (cinit 2).useAfterFree = false ∧
    (crun (cinit 2) [0, 1, 0, 1]).deletes = 2 ∧ (crun (cinit 2) [0, 1, 0, 1]).useAfterFree = true := by decide

end Verif.Ref
