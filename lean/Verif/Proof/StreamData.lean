import Verif.Spec.StreamData
import Verif.Props.RefContainer
import Verif.Proof.ConfigDb
/-! ## Proofs for the configuration on a stream -/
set_option linter.unusedSimpArgs false
namespace Verif.StreamData
open Verif.Config (Leaf)
open Verif.ConfigDb (Name)
open Verif.Json (Printer)
open Verif.Token (getToken)
open Verif.RefC (joinPath Words setAddress setAddress_join)
open Verif.Spec.ConfigDb (Forest)
open Verif.Spec.ConfigDoc (nameOk)
open Verif.Spec.StreamData

variable {B : Type}

theorem dotted_join : ∀ ws : List Name, dotted ws = joinPath ws
  | [] => rfl
  | [_] => rfl
  | w :: x :: ws => by rw [dotted, joinPath, dotted_join (x :: ws)] <;> simp

/-- Simple names. -/
def Simple (ws : List Name) : Prop := ∀ w ∈ ws, nameOk w = true

theorem nameOk_iff {n : Name} : nameOk n = true ↔ (n ≠ [] ∧ n.length < 2 ^ 32) ∧ '\x00' ∉ n ∧ '.' ∉ n := by
  simp [nameOk, and_assoc]

theorem Simple.words {ws : List Name} (h : Simple ws) (h0 : ws ≠ []) : Words ws :=
  ⟨h0, fun w hw => ⟨(nameOk_iff.mp (h w hw)).1.1, (nameOk_iff.mp (h w hw)).2.2⟩⟩

theorem address {ws : List Name} (h : Simple ws) (h0 : ws ≠ []) (hl : (dotted ws).length < 2 ^ 32) : setAddress (dotted ws) = ws := by
  rw [dotted_join] at hl ⊢
  exact setAddress_join ws (h.words h0) hl

theorem dotted_cons (w : Name) {ws : List Name} (h : ws ≠ []) : dotted (w :: ws) = w ++ '.' :: dotted ws := by
  cases ws with
  | nil => exact absurd rfl h
  | cons => rfl

theorem token_last {w : Name} (h : nameOk w = true) : getToken ['.'] none w = ⟨true, w, '\x00', []⟩ := by
  obtain ⟨⟨h1, h2⟩, h3, h4⟩ := nameOk_iff.mp h
  exact ConfigDb.getToken_last w h1 h4 h3 h2

theorem token_dot {w : Name} (h : nameOk w = true) (r : List Char) : getToken ['.'] none (w ++ '.' :: r) = ⟨true, w, '.', r⟩ := by
  obtain ⟨⟨h1, h2⟩, h3, h4⟩ := nameOk_iff.mp h
  exact ConfigDb.getToken_dot w r h1 h4 h3 h2

theorem token_nil : getToken ['.'] none [] = ⟨false, [], '\x00', []⟩ := by decide

theorem dotted_append {a : List Name} (ha : a ≠ []) : ∀ {b : List Name}, b ≠ [] → dotted (a ++ b) = dotted a ++ '.' :: dotted b := by
  induction a with
  | nil => exact absurd rfl ha
  | cons x a ih =>
    intro b hb
    cases a with
    | nil => rw [List.singleton_append, dotted_cons x hb]; rfl
    | cons y a =>
      rw [List.cons_append, dotted_cons x (by simp), ih (by simp) hb, dotted_cons x (by simp)]
      simp

/-- The length of what two lists have in common at the beginning. -/
def lcp : List Name → List Name → Nat
  | x :: a, y :: b => if x = y then lcp a b + 1 else 0
  | _, _ => 0

theorem lcp_le_right : ∀ a b : List Name, lcp a b ≤ b.length
  | [], _ => by simp [lcp]
  | _ :: _, [] => by simp [lcp]
  | x :: a, y :: b => by
    have := lcp_le_right a b
    simp only [lcp, List.length_cons]; split <;> omega

theorem lcp_take : ∀ a b : List Name, a.take (lcp a b) = b.take (lcp a b)
  | [], b => by simp [lcp]
  | x :: a, [] => by simp [lcp]
  | x :: a, y :: b => by
    simp only [lcp]; split
    · rename_i h; subst h; simp [lcp_take a b]
    · simp

theorem lcp_prefix (a b : List Name) : lcp (a ++ b) a = a.length := by
  induction a with
  | nil => cases b <;> rfl
  | cons x a ih => simp [lcp, ih]

theorem common_eq : ∀ (dest cur : List Name) (i : Nat), Simple cur → Simple dest → common dest '.' (dotted cur) i = i + lcp dest cur
  | [], cur, i, _, _ => by simp [common, lcp]
  | n :: ns, [], i, _, h => by
    have := nameOk_iff.mp (h n (by simp))
    have h0 : ¬ ([] : Name) = n := fun e => this.1.1 e.symm
    simp [common, lcp, dotted, token_nil, h0]
  | n :: ns, [w], i, hw, h => by
    simp only [common, dotted, token_last (hw w (by simp)), if_true, lcp]
    by_cases e : n = w
    · subst e
      cases ns <;> simp [common, lcp]
    · rw [if_neg (fun h => e h.symm), if_neg e]; rfl
  | n :: ns, w :: x :: cur, i, hw, h => by
    rw [dotted_cons w (by simp)]
    simp only [common, token_dot (hw w (by simp)), if_true, lcp]
    by_cases e : n = w
    · subst e
      rw [if_pos rfl, if_pos rfl, common_eq ns (x :: cur) (i + 1) (fun y hy => hw y (by simp [hy])) (fun y hy => h y (by simp [hy]))]
      omega
    · rw [if_neg (fun h => e h.symm), if_neg e]; rfl

/-- The first names, each with a dot. -/
def withDots : List Name → List Char
  | [] => []
  | w :: ws => w ++ '.' :: withDots ws

theorem first_names : ∀ (k : Nat) (ws : List Name), Simple ws → k < ws.length → firstNames k (dotted ws) = (true, withDots (ws.take k))
  | 0, _, _, _ => rfl
  | k + 1, [], _, h => by simp at h
  | k + 1, [_], _, h => by simp at h
  | k + 1, w :: x :: ws, hs, h => by
    rw [dotted_cons w (by simp), firstNames]
    simp only [token_dot (hs w (by simp))]
    rw [first_names k (x :: ws) (fun y hy => hs y (by simp [hy])) (by simp at h ⊢; omega)]
    simp [withDots]

theorem withDots_eq : ∀ {ws : List Name}, ws ≠ [] → withDots ws = dotted ws ++ ['.']
  | [w], _ => rfl
  | w :: x :: ws, _ => by
    rw [withDots, withDots_eq (by simp), dotted_cons w (by simp)]; simp

theorem path_of_names (ws : List Name) : (if (withDots ws).getLast? = some '.' then (withDots ws).dropLast else withDots ws) = dotted ws := by
  cases ws with
  | nil => rfl
  | cons w ws => rw [withDots_eq (by simp)]; simp

/-! ### Blocks that are open -/

theorem openBlocks_append (a b : List Ev) : ∀ w, openBlocks w (a ++ b) = (openBlocks w a).bind (openBlocks · b) := by
  induction a with
  | nil => intro w; rfl
  | cons e a ih =>
    intro w
    cases e <;> simp only [List.cons_append, openBlocks, ih]
    split <;> simp

@[simp] theorem put_node (s : St) (e : List Ev) : (s.put e).node = s.node := rfl
@[simp] theorem put_cur (s : St) (e : List Ev) : (s.put e).cur = s.cur := rfl
@[simp] theorem put_path (s : St) (e : List Ev) : (s.put e).path = s.path := rfl
@[simp] theorem put_out (s : St) (e : List Ev) : (s.put e).out = s.out ++ e := rfl
@[simp] theorem put_bc (s : St) (e : List Ev) : (s.put e).blockClosed = s.blockClosed := rfl
@[simp] theorem set_out (s : St) (w : List Name) (n : Node) : (s.set w n).out = s.out := rfl
@[simp] theorem set_cur (s : St) (w : List Name) (n : Node) : (s.set w n).cur = s.cur := rfl
@[simp] theorem set_path (s : St) (w : List Name) (n : Node) : (s.set w n).path = s.path := rfl
@[simp] theorem set_bc (s : St) (w : List Name) (n : Node) : (s.set w n).blockClosed = s.blockClosed := rfl

theorem closeDown_frame (k : Nat) : ∀ (m : Nat) (w : List Name) (s : St), (closeDown k m w s).cur = s.cur ∧ (closeDown k m w s).path = s.path
  | 0, _, _ => ⟨rfl, rfl⟩
  | m + 1, w, s => by
    simp only [closeDown]; split
    · exact closeDown_frame k m _ _
    · exact ⟨rfl, rfl⟩

theorem closeDown_open (k : Nat) : ∀ (m : Nat) (w : List Name) (s : St), w.length ≤ m → openBlocks [] s.out = some w →
    openBlocks [] (closeDown k m w s).out = some (w.take k)
  | 0, w, s, h, ho => by
    have : w = [] := List.length_eq_zero_iff.mp (by omega)
    subst this; simpa [closeDown] using ho
  | m + 1, w, s, h, ho => by
    simp only [closeDown]; split
    · rename_i hk
      have hne : w ≠ [] := by intro e; simp [e] at hk
      obtain ⟨u, x, rfl⟩ : ∃ u x, w = u ++ [x] := ⟨w.dropLast, w.getLast hne, (List.dropLast_concat_getLast hne).symm⟩
      rw [closeDown_open k m _ _ (by simp at h ⊢; omega)]
      · have : k ≤ u.length := by simp at hk; omega
        simp [List.take_append_of_le_length this]
      · simp [openBlocks_append, ho, openBlocks]
    · rename_i hk
      rw [ho, List.take_of_length_le (by omega)]

theorem openUp_frame : ∀ (ns : List Name) (first : Bool) (s : St), (openUp first ns s).cur = s.cur
  | [], _, _ => rfl
  | n :: ns, first, s => by
    simp only [openUp]
    rw [openUp_frame ns]
    split <;> split <;> rfl

theorem openUp_open : ∀ (ns : List Name) (first : Bool) (s : St) (w : List Name), openBlocks [] s.out = some w →
    openBlocks [] (openUp first ns s).out = some (w ++ ns)
  | [], _, s, w, h => by simpa [openUp] using h
  | n :: ns, first, s, w, h => by
    simp only [openUp]
    rw [openUp_open ns _ _ (w ++ [n])]
    · simp
    · split <;> split <;> simp [openBlocks_append, h, openBlocks]

/-- The state is at `w`. -/
def At (s : St) (w : List Name) : Prop := s.cur = w ∧ s.path = dotted w ∧ Simple w ∧ openBlocks [] s.out = some w

theorem createLoop_frame : ∀ (fuel : Nat) (w : List Name) (t : List Char) (s : St),
    (createLoop fuel w t s).cur = s.cur ∧ (createLoop fuel w t s).path = s.path ∧ (createLoop fuel w t s).out = s.out ∧
      (createLoop fuel w t s).blockClosed = s.blockClosed
  | 0, _, _, _ => ⟨rfl, rfl, rfl, rfl⟩
  | fuel + 1, w, t, s => by
    simp only [createLoop]; split
    · split
      · exact createLoop_frame fuel _ _ _
      · have := createLoop_frame fuel (w ++ [(getToken ['.'] none t).out]) (getToken ['.'] none t).rest
          ((s.set (w ++ [(getToken ['.'] none t).out]) .new).set w { s.node w with kids := (s.node w).kids ++ [(getToken ['.'] none t).out] })
        exact this
    · exact ⟨rfl, rfl, rfl, rfl⟩

theorem at_create {s : St} {w : List Name} (h : At s w) (fuel : Nat) (v : List Name) (t : List Char) : At (createLoop fuel v t s) w := by
  obtain ⟨e1, e2, e3, _⟩ := createLoop_frame fuel v t s
  exact ⟨e1.trans h.1, e2.trans h.2.1, h.2.2.1, by rw [e3]; exact h.2.2.2⟩

theorem at_move {s s' : St} {w ws : List Name} (h : At s w) (hw : Simple ws) (h0 : ws ≠ []) (hl : (dotted ws).length < 2 ^ 32)
    (hm : moveAbsolute (dotted ws) s = (true, s')) : At s' ws := by
  obtain ⟨hc, hp, hs, ho⟩ := h
  simp only [moveAbsolute, address hw h0 hl, hp, common_eq ws w 0 hs hw, Nat.zero_add, hc] at hm
  split at hm
  · split at hm
    · simp at hm
    · split at hm
      · simp at hm
      · rename_i hne
        have hlcp : w.take (lcp ws w) ++ ws.drop (lcp ws w) = ws := by
          rw [← lcp_take, List.take_append_drop]
        have hopen := closeDown_open (lcp ws w) w.length w s (Nat.le_refl _) ho
        generalize hs1 : closeDown (lcp ws w) w.length w s = s1 at hm hopen
        have key : ∀ s2 : St, openBlocks [] s2.out = some (w.take (lcp ws w)) →
            openBlocks [] (openUp true (ws.drop (lcp ws w)) s2).out = some ws := by
          intro s2 h2
          rw [openUp_open _ _ _ _ h2, hlcp]
        by_cases hx : lcp ws w < w.length
        · simp only [gt_iff_lt, hx, if_true] at hm
          have e : s' = _ := (Prod.mk.inj hm).2.symm
          rw [e]
          exact ⟨rfl, rfl, hw, key _ hopen⟩
        · simp only [gt_iff_lt, hx, if_false] at hm
          have e : s' = _ := (Prod.mk.inj hm).2.symm
          rw [e]
          exact ⟨rfl, rfl, hw, key _ hopen⟩
  · simp at hm

theorem under_eq {s : St} {w : List Name} (hp : s.path = dotted w) (hs : Simple w) {u : List Name} (hu : u ≠ []) :
    under s (dotted u) = dotted (w ++ u) := by
  cases w with
  | nil => simp [under, hp, dotted]
  | cons x w =>
    have : (dotted (x :: w)).length > 0 := by
      obtain ⟨c, r, e, _⟩ := RefC.join_head (x :: w) (hs.words (by simp))
      rw [dotted_join, e]; simp
    rw [under, hp, if_pos this, dotted_append (by simp) hu]; simp

theorem at_under {s : St} {w : List Name} (h : At s w) {u : List Name} (hu : u ≠ []) : under s (dotted u) = dotted (w ++ u) :=
  under_eq h.2.1 h.2.2.1 hu

theorem dotted_take (w : List Name) (k : Nat) : (dotted (w.take k)).length ≤ (dotted w).length := by
  by_cases h1 : w.take k = []
  · rw [h1]; simp [dotted]
  · by_cases h2 : w.drop k = []
    · have : w.take k = w := by have := List.take_append_drop k w; rw [h2, List.append_nil] at this; exact this
      rw [this]; exact Nat.le_refl _
    · have := dotted_append h1 h2
      rw [List.take_append_drop] at this
      rw [this]; simp

theorem write_open {p : Printer B} {n : Name} {v : Leaf B} {s s' : St} {ok : Bool} {w : List Name} (h : At s w)
    (hm : write p n v s = some (ok, s')) : At s' w := by
  obtain ⟨hc, hp, hs, ho⟩ := h
  simp only [write] at hm
  split at hm
  · simp at hm
  · simp only [Option.some.injEq, Prod.mk.injEq] at hm
    rw [← hm.2]
    refine ⟨?_, ?_, hs, ?_⟩ <;> (split <;> split) <;> simp_all [openBlocks_append, openBlocks]
  · simp only [Option.some.injEq, Prod.mk.injEq] at hm
    rw [← hm.2]
    refine ⟨?_, ?_, hs, ?_⟩ <;> (split <;> split) <;> simp_all [openBlocks_append, openBlocks]

theorem step_at {p : Printer B} {op : Op B} {s s' : St} {w : List Name} (h : At s w) (hop : simple op)
    (hl : (dotted w).length + size op < 2 ^ 32) (hm : step p s op = some (true, s')) :
    ∃ u, At s' u ∧ leads w op u ∧ (dotted u).length ≤ (dotted w).length + size op := by
  cases op with
  | write n v => exact ⟨w, write_open h hm, rfl, by simp [size]⟩
  | moveToRoot =>
    simp only [step, moveToRoot, Option.some.injEq] at hm
    split at hm
    · have e : s' = _ := (Prod.mk.inj hm).2.symm
      rw [e]
      refine ⟨[], ⟨rfl, rfl, by simp [Simple], ?_⟩, rfl, by simp [dotted]⟩
      have := closeDown_open 0 s.cur.length s.cur s (Nat.le_refl _) (by rw [h.2.2.2, h.1])
      simpa using this
    · simp at hm
  | moveToAncestor k =>
    simp only [step, moveToAncestor, Option.some.injEq] at hm
    split at hm
    · split at hm
      · rename_i hk0 hk
        rw [h.2.1, h.1, first_names _ _ h.2.2.1 (by rw [h.1] at hk; omega)] at hm
        simp only [if_true] at hm
        have e : s' = _ := (Prod.mk.inj hm).2.symm
        rw [e]
        refine ⟨w.take (w.length - k), ⟨rfl, path_of_names _, fun x hx => h.2.2.1 x (List.mem_of_mem_take hx), ?_⟩, rfl, ?_⟩
        · exact closeDown_open (w.length - k) w.length w s (Nat.le_refl _) h.2.2.2
        · exact Nat.le_trans (dotted_take w _) (by omega)
      · simp at hm
    · rename_i hk0
      have e : s' = s := (Prod.mk.inj hm).2.symm
      subst e
      have : k = 0 := by omega
      subst this
      exact ⟨w, h, by simp [leads], by simp [size]⟩
  | moveAbsolute t =>
    obtain ⟨ws, h0, hw, rfl⟩ := hop
    simp only [size] at hl
    exact ⟨ws, at_move h hw h0 (by omega) (Option.some.inj hm), rfl, by simp only [size]; omega⟩
  | createAbsolute t =>
    obtain ⟨ws, h0, hw, rfl⟩ := hop
    simp only [size] at hl
    exact ⟨ws, at_move (at_create h _ _ _) hw h0 (by omega) (Option.some.inj hm), rfl, by simp only [size]; omega⟩
  | moveRelative t =>
    obtain ⟨ws, h0, hw, rfl⟩ := hop
    simp only [step, moveRelative, at_under h h0, Option.some.injEq] at hm
    have hlen : (dotted (w ++ ws)).length ≤ (dotted w).length + ((dotted ws).length + 1) := by
      by_cases hw0 : w = []
      · subst hw0; simp [dotted]
      · rw [dotted_append hw0 h0]; simp
    simp only [size] at hl
    refine ⟨w ++ ws, at_move h ?_ (by simp [h0]) (by omega) hm, ⟨ws, rfl, rfl⟩, hlen⟩
    intro x hx
    rcases List.mem_append.mp hx with h1 | h1
    · exact h.2.2.1 x h1
    · exact hw x h1
  | createRelative t =>
    obtain ⟨ws, h0, hw, rfl⟩ := hop
    simp only [step, createRelative, createAbsolute, at_under h h0, Option.some.injEq] at hm
    have hlen : (dotted (w ++ ws)).length ≤ (dotted w).length + ((dotted ws).length + 1) := by
      by_cases hw0 : w = []
      · subst hw0; simp [dotted]
      · rw [dotted_append hw0 h0]; simp
    simp only [size] at hl
    refine ⟨w ++ ws, at_move (at_create h _ _ _) ?_ (by simp [h0]) (by omega) hm, ⟨ws, rfl, rfl⟩, hlen⟩
    intro x hx
    rcases List.mem_append.mp hx with h1 | h1
    · exact h.2.2.1 x h1
    · exact hw x h1

theorem run_at {p : Printer B} : ∀ (ops : List (Op B)) (s s' : St) (w : List Name) (answers : List Bool), At s w → (∀ op ∈ ops, simple op) →
    (dotted w).length + (ops.map size).sum < 2 ^ 32 → run p s ops = some (answers, s') → answers.all id = true →
    ∃ u, At s' u ∧ leadsTo w ops u
  | [], s, s', w, answers, h, _, _, hm, _ => by
    simp only [run, Option.some.injEq, Prod.mk.injEq] at hm
    rw [← hm.2]
    exact ⟨w, h, rfl⟩
  | op :: ops, s, s', w, answers, h, hs, hl, hm, ha => by
    simp only [run, Option.bind_eq_some_iff, Option.map_eq_some_iff] at hm
    obtain ⟨⟨ok, s1⟩, h1, ⟨as, s2⟩, h2, e⟩ := hm
    simp only [Prod.mk.injEq] at e
    obtain ⟨rfl, rfl⟩ := e
    simp only [List.all_cons, id, Bool.and_eq_true] at ha
    obtain ⟨ha1, ha2⟩ := ha
    subst ha1
    simp only [List.map_cons, List.sum_cons] at hl
    obtain ⟨u, hu, hlead, hlen⟩ := step_at h (hs op (by simp)) (by omega) h1
    obtain ⟨x, hx, hx2⟩ := run_at ops s1 s2 u as hu (fun o ho => hs o (by simp [ho])) (by omega) h2 ha2
    exact ⟨x, hx, u, hlead, hx2⟩

end Verif.StreamData
