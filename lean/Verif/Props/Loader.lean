import Verif.Spec.Loader
import Verif.Props.RefPurge
/-! ## C106: reconfigurations -/
set_option linter.unusedSimpArgs false
namespace Verif.Loader
open Verif.Msg (Err Err.put Err.cleared fatalErrorBit parametersErrorBit)
open Verif.Spec.Loader Verif.Spec.RefPurge

variable {T W : Type} (env : Env T W)

private theorem drain_length (n x : Nat) : ∀ s : RefPurge.S, (RefPurge.drain n x s).heap.length = s.heap.length := by
  induction n with
  | zero => intro s; rfl
  | succ n ih =>
    intro s
    rw [RefPurge.drain]
    split
    · exact ih s
    · rw [ih, List.length_set]

private theorem each_length (f : Nat → RefPurge.S → Option RefPurge.S) (hf : ∀ o s t, f o s = some t → t.heap.length = s.heap.length) (n : Nat) :
    ∀ i (s t : RefPurge.S), RefPurge.each f i n s = some t → t.heap.length = s.heap.length := by
  induction n with
  | zero => intro i s t h; simp only [RefPurge.each, Option.some_inj] at h; rw [h]
  | succ n ih =>
    intro i s t h
    rw [RefPurge.each, Option.bind_eq_some_iff] at h
    obtain ⟨u, hu, ht⟩ := h
    rw [ih _ _ _ ht]
    split at hu
    · exact hf _ _ _ hu
    · rw [Option.some_inj] at hu; rw [hu]

private theorem purge_length (fuel : Nat) : ∀ x (s t : RefPurge.S), RefPurge.purge fuel x s = some t → t.heap.length = s.heap.length := by
  induction fuel with
  | zero => intro x s t h; cases h
  | succ n ih =>
    intro x s t h
    rw [RefPurge.purge] at h
    rw [each_length _ ih _ _ _ _ h, drain_length]

private theorem purged (s : St T W) : ∃ H, purgeAll s = { s with heap := H } ∧ H.length = s.heap.length ∧
    (∀ y, Reach s.heap 0 y → (H[y]?).getD [] = []) ∧ (∀ y, ¬ Reach s.heap 0 y → (H[y]?).getD [] = (s.heap[y]?).getD []) := by
  obtain ⟨H, moved, h1, h2, h3, _⟩ := RefPurge.c71_purge s.heap [] 0 (s.heap.flatten.length + 1) (by simp [references])
  refine ⟨H, ?_, purge_length _ _ _ _ h1, h2, h3⟩
  rw [purgeAll, h1]

private theorem zero_cleared : Err.cleared (0 : Err) = true := by decide

private theorem cleared_iff (e : Err) : e.cleared = true ↔ e = 0 := by
  simp only [Err.cleared, beq_iff_eq]

private theorem not_cleared {e : Err} (h : e ≠ 0) : e.cleared = false := by
  rw [Bool.eq_false_iff, Ne, cleared_iff]; exact h

private theorem send_eq (k : Kind) (s : St T W) : sendMsg env k s =
    ((told env s.msgs k s.registry s.w).1, { s with sent := s.sent ++ those s.msgs [k], w := (told env s.msgs k s.registry s.w).2 }) := by
  by_cases h : k ∈ s.msgs
  · simp [sendMsg, told, those, h]
  · simp [sendMsg, told, those, h]

private theorem set_zero (H : List (List Nat)) (h : H ≠ []) (l : List Nat) : ((H.set 0 l)[0]?).getD [] = l := by
  cases H with
  | nil => exact absurd rfl h
  | cons a H => rfl

/-- Purging, building and `PostReconfigure`. -/
private theorem try_eq (c : Cfg T) (s : St T W) (h0 : s.heap ≠ []) :
    ∃ H, H.length = s.heap.length + (attempt env c s.heap.length s.w).new.length ∧ (H[0]?).getD [] = (attempt env c s.heap.length s.w).roots ∧
      (∀ i, i < (attempt env c s.heap.length s.w).new.length → H[s.heap.length + i]? = (attempt env c s.heap.length s.w).new[i]?) ∧
      (∀ y, y ≠ 0 → y < s.heap.length → Reach s.heap 0 y → H[y]? = some []) ∧
      (∀ y, y ≠ 0 → y < s.heap.length → ¬ Reach s.heap 0 y → H[y]? = s.heap[y]?) ∧
      seq (buildFrom env c (purgeAll s)) (postReconf env) =
        ((attempt env c s.heap.length s.w).err, { s with heap := H, w := (attempt env c s.heap.length s.w).w }) := by
  obtain ⟨G, hG, hl, hr, hk⟩ := purged s
  have hGn : G ≠ [] := by intro e; rw [e] at hl; exact h0 (List.length_eq_zero_iff.mp hl.symm)
  have hG0 : (G[0]?).getD [] = [] := hr 0 .self
  have hlen : (attempt env c s.heap.length s.w).new = (env.build c s.heap.length s.w).1.2.2 ∧ (attempt env c s.heap.length s.w).roots = (env.build c s.heap.length s.w).1.2.1 := by
    rw [attempt]; split <;> rename_i h <;> rw [h] <;> exact ⟨rfl, rfl⟩
  have hat : ∀ y, y < s.heap.length → ∀ l, (G.set 0 l ++ (env.build c s.heap.length s.w).1.2.2)[y]? = (G.set 0 l)[y]? := by
    intro y hy l
    exact List.getElem?_append_left (by rw [List.length_set, hl]; exact hy)
  have hpos : 0 < s.heap.length := List.length_pos_iff.mpr h0
  refine ⟨G.set 0 ((env.build c s.heap.length s.w).1.2.1) ++ (env.build c s.heap.length s.w).1.2.2, ?_, ?_, ?_, ?_, ?_, ?_⟩
  · rw [List.length_append, List.length_set, hl, hlen.1]
  · rw [hat 0 hpos, set_zero _ hGn, hlen.2]
  · intro i hi
    rw [List.getElem?_append_right (by rw [List.length_set, hl]; omega), List.length_set, hl, hlen.1]
    congr 1
    omega
  · intro y hy hy2 hry
    rw [hat y hy2, List.getElem?_set_ne (Ne.symm hy)]
    have h1 := hr y hry
    rw [List.getElem?_eq_getElem (by omega), Option.getD_some] at h1
    rw [List.getElem?_eq_getElem (by omega), h1]
  · intro y hy hy2 hry
    rw [hat y hy2, List.getElem?_set_ne (Ne.symm hy)]
    have h1 := hk y hry
    rw [List.getElem?_eq_getElem (by omega), Option.getD_some, List.getElem?_eq_getElem hy2, Option.getD_some] at h1
    rw [List.getElem?_eq_getElem (by omega), h1, List.getElem?_eq_getElem hy2]
  · rw [hG]
    have hreg : ({ s with heap := G } : St T W).registry = [] := hG0
    have hset := set_zero G hGn (env.build c s.heap.length s.w).1.2.1
    have h0' := hat 0 hpos (env.build c s.heap.length s.w).1.2.1
    rcases hb : env.build c s.heap.length s.w with ⟨⟨b, roots, new⟩, w2⟩
    rw [hb] at hset h0'
    simp only at hset h0'
    cases b with
    | false =>
      simp only [buildFrom, hreg, hl, List.nil_append, hb, attempt, seq, Bool.false_eq_true, if_false]
      rw [if_neg (by decide)]
      rfl
    | true =>
      simp only [buildFrom, hreg, hl, List.nil_append, hb, attempt, seq, if_true, zero_cleared]
      simp only [postReconf, St.registry, h0', hset]

private theorem seq_assoc (r : Err × St T W) (f g : St T W → Err × St T W) : seq (seq r f) g = seq r fun s => seq (f s) g := by
  simp only [seq]
  split <;> rename_i h
  · rfl
  · simp only [if_neg h]

private theorem seq_ok (s : St T W) (f : St T W → Err × St T W) : seq (0, s) f = f s := by simp only [seq, zero_cleared, if_true]

private theorem seq_err {e : Err} (h : e ≠ 0) (s : St T W) (f : St T W → Err × St T W) : seq (e, s) f = (e, s) := by simp only [seq, not_cleared h, Bool.false_eq_true, if_false]

private theorem pos_of {H : List (List Nat)} {n : Nat} {l : List (List Nat)} (h : l ≠ []) (e : H.length = l.length + n) : H ≠ [] := by
  intro hn
  rw [hn, List.length_nil] at e
  exact h (List.length_eq_zero_iff.mp (by omega))

private theorem those_two (msgs : List Kind) (a b : Kind) (l : List Kind) : l ++ those msgs [a] ++ those msgs [b] = l ++ those msgs [a, b] := by
  rw [List.append_assoc, those, those, those, ← List.filter_append]; rfl

private theorem those_three (msgs : List Kind) (a b c : Kind) (l : List Kind) :
    l ++ those msgs [a] ++ those msgs [b] ++ those msgs [c] = l ++ those msgs [a, b, c] := by
  rw [those_two, List.append_assoc, those, those, those, ← List.filter_append]; rfl

section calls
variable (c : Cfg T) (s : St T W) (hn : s.first = false) (h0 : s.heap ≠ [])
include hn h0

/-- **C106.** A configuration that can be built and post-configured replaces the one that runs: afterwards the objects of the
registry are those of the new configuration and those that are kept, and the last valid configuration is the new one; the objects
that were registered have been emptied.  The messages before and after are sent. -/
theorem c106_applied (w : W) (hpre : told env s.msgs .pre s.registry s.w = (0, w)) (hok : (attempt env c s.heap.length w).err = 0) (c' : Cfg T)
    (hc : env.copy c = (true, c')) :
    ∃ s', reconfigure env c s = ((told env s.msgs .post ((attempt env c s.heap.length w).roots ++ s.keep) (attempt env c s.heap.length w).w).1, s') ∧
      s'.registry = (attempt env c s.heap.length w).roots ++ s.keep ∧ s'.parsed = c' ∧
      (∀ i, i < (attempt env c s.heap.length w).new.length → s'.heap[s.heap.length + i]? = (attempt env c s.heap.length w).new[i]?) ∧
      (∀ y, y ≠ 0 → y < s.heap.length → Reach s.heap 0 y → s'.heap[y]? = some []) ∧
      s'.sent = s.sent ++ those s.msgs [.pre, .post] ∧ s'.first = false ∧ s'.keep = s.keep ∧ s'.msgs = s.msgs ∧ s'.reloadLast = s.reloadLast := by
  obtain ⟨first, rl, parsed, keep, msgs, heap, sent, w0⟩ := s
  simp only at *
  subst hn
  obtain ⟨H, hl, hr, hnew, hemp, -, ht⟩ := try_eq env c (⟨false, rl, parsed, keep, msgs, heap, sent ++ those msgs [.pre], w⟩ : St T W) h0
  simp only at hl hr hnew hemp ht
  rw [hok] at ht
  have hreg : ∀ (f r : Bool) (p : Cfg T) (k : List Nat) (m : List Kind) (l : List Nat) (z : List Kind) (v : W), (⟨f, r, p, k, m, H.set 0 l, z, v⟩ : St T W).registry = l :=
    fun _ _ _ _ _ l _ _ => set_zero H (pos_of h0 hl) l
  have hreg2 : ∀ (f r : Bool) (p : Cfg T) (k : List Nat) (m : List Kind) (z : List Kind) (v : W), (⟨f, r, p, k, m, H, z, v⟩ : St T W).registry = (attempt env c heap.length w).roots :=
    fun _ _ _ _ _ _ _ => hr
  have hpos : 0 < heap.length := List.length_pos_iff.mpr h0
  simp only [reconfigure, Bool.false_eq_true, if_false, send_eq, hpre, later, seq_ok, ht, store, hc, if_true, recover, zero_cleared, insertKept, hreg, hreg2,
    Bool.true_or, Bool.and_false]
  refine ⟨_, rfl, ?_, rfl, ?_, ?_, ?_, rfl, rfl, rfl, rfl⟩
  · exact hreg ..
  · intro i hi
    simp only
    rw [List.getElem?_set_ne (by omega)]
    exact hnew i hi
  · intro y hy hy2 hr2
    simp only
    rw [List.getElem?_set_ne (Ne.symm hy)]
    exact hemp y hy hy2 hr2
  · exact those_two _ _ _ _

/-- A configuration that fails, when the last one is to be reloaded: it is, with the objects that are kept, and stays the last
valid one; the answer is a recoverable error, or that of the message after. -/
theorem c106_rolled_back (w : W) (hpre : told env s.msgs .pre s.registry s.w = (0, w)) (herr : (attempt env c s.heap.length w).err ≠ 0) (hr : s.reloadLast = true)
    (a : Attempt W) (ha : a = attempt env s.parsed (s.heap.length + (attempt env c s.heap.length w).new.length) (attempt env c s.heap.length w).w) (hok : a.err = 0) :
    ∃ e s', reconfigure env c s = (e, s') ∧
      (e = 2 ∧ (told env s.msgs .post (a.roots ++ s.keep) (told env s.msgs .reloaded (a.roots ++ s.keep) a.w).2).1 = 0 ∨
        e ≠ 0 ∧ e = (told env s.msgs .post (a.roots ++ s.keep) (told env s.msgs .reloaded (a.roots ++ s.keep) a.w).2).1) ∧
      s'.registry = a.roots ++ s.keep ∧ s'.parsed = s.parsed ∧ s'.sent = s.sent ++ those s.msgs [.pre, .reloaded, .post] ∧
      s'.first = false ∧ s'.keep = s.keep ∧ s'.msgs = s.msgs ∧ s'.reloadLast = s.reloadLast := by
  obtain ⟨first, rl, parsed, keep, msgs, heap, sent, w0⟩ := s
  simp only at *
  subst hn
  subst hr
  obtain ⟨H, hl, hr1, -, -, -, ht⟩ := try_eq env c (⟨false, true, parsed, keep, msgs, heap, sent ++ those msgs [.pre], w⟩ : St T W) h0
  simp only at hl hr1 ht
  obtain ⟨G, gl, gr, -, -, -, gt⟩ := try_eq env parsed
    (⟨false, true, parsed, keep, msgs, H, sent ++ those msgs [.pre], (attempt env c heap.length w).w⟩ : St T W) (pos_of h0 hl)
  simp only [hl] at gl gr gt
  rw [← ha] at gl gr gt
  rw [hok] at gt
  have hpar : ∀ t : St T W, (purgeAll t).parsed = t.parsed := by
    intro t
    obtain ⟨_, e, _⟩ := purged t
    rw [e]
  have hGn : G ≠ [] := by
    intro e
    rw [e, List.length_nil] at gl
    exact h0 (List.length_eq_zero_iff.mp (by omega))
  have hreg : ∀ (f r : Bool) (p : Cfg T) (k : List Nat) (m : List Kind) (l : List Nat) (z : List Kind) (v : W), (⟨f, r, p, k, m, G.set 0 l, z, v⟩ : St T W).registry = l :=
    fun _ _ _ _ _ l _ _ => set_zero G hGn l
  have hreg2 : ∀ (f r : Bool) (p : Cfg T) (k : List Nat) (m : List Kind) (z : List Kind) (v : W), (⟨f, r, p, k, m, G, z, v⟩ : St T W).registry = a.roots :=
    fun _ _ _ _ _ _ _ => gr
  simp only [reconfigure, Bool.false_eq_true, if_false, send_eq, hpre, later, seq_ok, ht, seq_err herr, recover, not_cleared herr, if_true, reload, hpar, gt,
    zero_cleared, Bool.not_true, insertKept, hreg, hreg2, Bool.or_true, Bool.and_true]
  refine ⟨_, _, rfl, ?_, hreg .., rfl, those_three .., rfl, rfl, rfl, rfl⟩
  by_cases he : (told env msgs .post (a.roots ++ keep) (told env msgs .reloaded (a.roots ++ keep) a.w).2).1 = 0
  · left
    rw [he, if_pos zero_cleared]
    exact ⟨by decide, rfl⟩
  · right
    rw [if_neg (by rw [not_cleared he]; decide)]
    exact ⟨he, rfl⟩

/-- A configuration that fails, and nothing to reload or a reload that fails: the answer is the error, the last valid
configuration stays, the objects that are kept are registered, and the message of the failure is sent. -/
theorem c106_failed (w : W) (hpre : told env s.msgs .pre s.registry s.w = (0, w)) (herr : (attempt env c s.heap.length w).err ≠ 0)
    (hr : s.reloadLast = false ∨
      (attempt env s.parsed (s.heap.length + (attempt env c s.heap.length w).new.length) (attempt env c s.heap.length w).w).err ≠ 0) :
    ∃ s' l, reconfigure env c s = ((attempt env c s.heap.length w).err, s') ∧ s'.registry = l ++ s.keep ∧
      (s.reloadLast = false → l = (attempt env c s.heap.length w).roots) ∧ s'.parsed = s.parsed ∧
      s'.sent = s.sent ++ those s.msgs [.pre, .failed] ∧ s'.first = false ∧ s'.keep = s.keep ∧ s'.msgs = s.msgs ∧ s'.reloadLast = s.reloadLast := by
  obtain ⟨first, rl, parsed, keep, msgs, heap, sent, w0⟩ := s
  simp only at *
  subst hn
  obtain ⟨H, hl, hr1, -, -, -, ht⟩ := try_eq env c (⟨false, rl, parsed, keep, msgs, heap, sent ++ those msgs [.pre], w⟩ : St T W) h0
  simp only at hl hr1 ht
  have key : ∀ (K : List (List Nat)) (hK : K ≠ []) (l : List Nat) (f r : Bool) (p : Cfg T) (k : List Nat) (m : List Kind) (z : List Kind) (v : W),
      (⟨f, r, p, k, m, K.set 0 l, z, v⟩ : St T W).registry = l := fun K hK l _ _ _ _ _ _ _ => set_zero K hK l
  cases rl with
  | false =>
    have hreg2 : ∀ (f r : Bool) (p : Cfg T) (k : List Nat) (m : List Kind) (z : List Kind) (v : W), (⟨f, r, p, k, m, H, z, v⟩ : St T W).registry = (attempt env c heap.length w).roots :=
      fun _ _ _ _ _ _ _ => hr1
    simp only [reconfigure, Bool.false_eq_true, if_false, send_eq, hpre, later, seq_ok, ht, seq_err herr, recover, not_cleared herr, if_true, insertKept,
      key H (pos_of h0 hl), hreg2, Bool.or_self]
    exact ⟨_, (attempt env c heap.length w).roots, rfl, key H (pos_of h0 hl) .., fun _ => rfl, rfl, those_two .., rfl, rfl, rfl, rfl⟩
  | true =>
    have herr2 := hr.resolve_left (by decide)
    obtain ⟨G, gl, gr, -, -, -, gt⟩ := try_eq env parsed
      (⟨false, true, parsed, keep, msgs, H, sent ++ those msgs [.pre], (attempt env c heap.length w).w⟩ : St T W) (pos_of h0 hl)
    simp only [hl] at gl gr gt
    have hpar : ∀ t : St T W, (purgeAll t).parsed = t.parsed := by
      intro t
      obtain ⟨_, e, _⟩ := purged t
      rw [e]
    have hGn : G ≠ [] := by
      intro e
      rw [e, List.length_nil] at gl
      exact h0 (List.length_eq_zero_iff.mp (by omega))
    have hreg2 : ∀ (f r : Bool) (p : Cfg T) (k : List Nat) (m : List Kind) (z : List Kind) (v : W), (⟨f, r, p, k, m, G, z, v⟩ : St T W).registry =
        (attempt env parsed (heap.length + (attempt env c heap.length w).new.length) (attempt env c heap.length w).w).roots :=
      fun _ _ _ _ _ _ _ => gr
    simp only [reconfigure, Bool.false_eq_true, if_false, send_eq, hpre, later, seq_ok, ht, seq_err herr, recover, not_cleared herr, if_true, reload, hpar, gt,
      not_cleared herr2, Bool.not_false, insertKept, key G hGn, hreg2, Bool.or_self]
    exact ⟨_, _, rfl, key G hGn .., fun h => (by cases h), rfl, those_two .., rfl, rfl, rfl, rfl⟩

/-- **C106 (disagreement).** If the message before cannot be delivered, nothing is purged and the new configuration is not tried;
but the objects that are kept, which are still registered, are registered again, once more after each such call.  With
`ReloadLast` the configuration that runs is purged and built again. -/
theorem c106_before_fails (e : Err) (w : W) (he : e ≠ 0) (hpre : told env s.msgs .pre s.registry s.w = (e, w)) :
    (s.reloadLast = false → ∃ s', reconfigure env c s = (e, s') ∧ s'.registry = s.registry ++ s.keep ∧ (∀ y, y ≠ 0 → s'.heap[y]? = s.heap[y]?) ∧
      s'.parsed = s.parsed ∧ s'.sent = s.sent ++ those s.msgs [.pre, .failed] ∧ s'.first = false ∧ s'.keep = s.keep ∧ s'.msgs = s.msgs ∧ s'.reloadLast = s.reloadLast) ∧
    (s.reloadLast = true → (attempt env s.parsed s.heap.length w).err = 0 → ∃ e' s', reconfigure env c s = (e', s') ∧ e' ≠ 0 ∧
      s'.registry = (attempt env s.parsed s.heap.length w).roots ++ s.keep ∧ s'.parsed = s.parsed ∧
      s'.sent = s.sent ++ those s.msgs [.pre, .reloaded, .post] ∧ s'.first = false ∧ s'.keep = s.keep ∧ s'.msgs = s.msgs ∧ s'.reloadLast = s.reloadLast) ∧
    (s.reloadLast = true → (attempt env s.parsed s.heap.length w).err ≠ 0 → ∃ s', reconfigure env c s = (e, s') ∧
      s'.registry = (attempt env s.parsed s.heap.length w).roots ++ s.keep ∧ s'.parsed = s.parsed ∧
      s'.sent = s.sent ++ those s.msgs [.pre, .failed] ∧ s'.first = false ∧ s'.keep = s.keep ∧ s'.msgs = s.msgs ∧ s'.reloadLast = s.reloadLast) := by
  obtain ⟨first, rl, parsed, keep, msgs, heap, sent, w0⟩ := s
  simp only at *
  subst hn
  have key : ∀ (K : List (List Nat)) (hK : K ≠ []) (l : List Nat) (f r : Bool) (p : Cfg T) (k : List Nat) (m : List Kind) (z : List Kind) (v : W),
      (⟨f, r, p, k, m, K.set 0 l, z, v⟩ : St T W).registry = l := fun K hK l _ _ _ _ _ _ _ => set_zero K hK l
  refine ⟨?_, ?_, ?_⟩
  · intro hr
    subst hr
    simp only [reconfigure, Bool.false_eq_true, if_false, send_eq, hpre, later, seq_err he, recover, not_cleared he, if_true, insertKept, Bool.or_self, key heap h0]
    refine ⟨_, rfl, key heap h0 .., ?_, rfl, those_two .., rfl, rfl, rfl, rfl⟩
    intro y hy
    simp only
    rw [List.getElem?_set_ne (Ne.symm hy)]
  all_goals
    intro hr hok
    subst hr
    obtain ⟨G, gl, gr, -, -, -, gt⟩ := try_eq env parsed (⟨false, true, parsed, keep, msgs, heap, sent ++ those msgs [.pre], w⟩ : St T W) h0
    simp only at gl gr gt
    have hpar : ∀ t : St T W, (purgeAll t).parsed = t.parsed := by
      intro t
      obtain ⟨_, e, _⟩ := purged t
      rw [e]
    have hGn := pos_of h0 gl
    have hreg2 : ∀ (f r : Bool) (p : Cfg T) (k : List Nat) (m : List Kind) (z : List Kind) (v : W), (⟨f, r, p, k, m, G, z, v⟩ : St T W).registry = (attempt env parsed heap.length w).roots :=
      fun _ _ _ _ _ _ _ => gr
  · rw [hok] at gt
    simp only [reconfigure, Bool.false_eq_true, if_false, send_eq, hpre, later, seq_err he, recover, not_cleared he, if_true, reload, hpar, gt,
      zero_cleared, Bool.not_true, insertKept, key G hGn, hreg2, Bool.or_true, Bool.and_true]
    refine ⟨_, _, rfl, ?_, key G hGn .., rfl, those_three .., rfl, rfl, rfl, rfl⟩
    split <;> rename_i h
    · rw [(cleared_iff _).mp h]
      decide
    · intro h2
      rw [h2] at h
      exact h zero_cleared
  · simp only [reconfigure, Bool.false_eq_true, if_false, send_eq, hpre, later, seq_err he, recover, not_cleared he, if_true, reload, hpar, gt,
      not_cleared hok, Bool.not_false, insertKept, key G hGn, hreg2, Bool.or_self]
    exact ⟨_, rfl, key G hGn .., rfl, those_two .., rfl, rfl, rfl, rfl⟩

end calls

section heap
private theorem ne_send (k : Kind) (s : St T W) (h : s.heap ≠ []) : (sendMsg env k s).2.heap ≠ [] := by rw [send_eq]; exact h

private theorem ne_purge (s : St T W) (h : s.heap ≠ []) : (purgeAll s).heap ≠ [] := by
  obtain ⟨H, e, hl, _⟩ := purged s
  rw [e]
  intro e2
  simp only at e2
  rw [e2] at hl
  exact h (List.length_eq_zero_iff.mp hl.symm)

private theorem ne_build (c : Cfg T) (s : St T W) (h : s.heap ≠ []) : (buildFrom env c s).2.heap ≠ [] := by
  rw [buildFrom]
  intro e
  have := (List.append_eq_nil_iff.mp e).1
  have h2 := congrArg List.length this
  rw [List.length_set, List.length_nil] at h2
  exact h (List.length_eq_zero_iff.mp h2)

private theorem ne_seq (r : Err × St T W) (f : St T W → Err × St T W) (hr : r.2.heap ≠ []) (hf : ∀ s : St T W, s.heap ≠ [] → (f s).2.heap ≠ []) :
    (seq r f).2.heap ≠ [] := by
  rw [seq]
  split
  · exact hf _ hr
  · exact hr

private theorem ne_post (s : St T W) (h : s.heap ≠ []) : (postReconf env s).2.heap ≠ [] := h

private theorem ne_store (c : Cfg T) (s : St T W) (h : s.heap ≠ []) : (store env c s).2.heap ≠ [] := h

private theorem ne_kept (s : St T W) (h : s.heap ≠ []) : (insertKept s).heap ≠ [] := by
  intro e
  have h2 := congrArg List.length e
  rw [insertKept, List.length_set, List.length_nil] at h2
  exact h (List.length_eq_zero_iff.mp h2)

private theorem ne_recover (r : Err × St T W) (h : r.2.heap ≠ []) : (recover env r).2.2.heap ≠ [] := by
  rw [recover]
  split
  · exact h
  · split
    · exact ne_seq _ _ (ne_build env _ _ (ne_purge _ h)) (ne_post env)
    · exact h

private theorem ne_later (c : Cfg T) (r : Err × St T W) (h : r.2.heap ≠ []) : (later env c r).2.2.heap ≠ [] := by
  have h1 := ne_kept _ (ne_recover env _ (ne_seq _ _ (ne_seq r _ h (ne_post env)) (ne_store env c)))
  simp only [later]
  split
  · exact h1
  · split
    · exact ne_send env _ _ h1
    · split
      · exact ne_send env _ _ h1
      · exact h1

private theorem ne_reconf (c : Cfg T) (s : St T W) (h : s.heap ≠ []) : (reconfigure env c s).2.heap ≠ [] := by
  have hb : ∀ s : St T W, s.heap ≠ [] → (buildFrom env c (purgeAll s)).2.heap ≠ [] := fun s hs => ne_build env _ _ (ne_purge _ hs)
  cases hf : s.first with
  | true =>
    have h2 := ne_seq _ _ (ne_seq (0, s) _ h hb) (ne_store env c)
    simp only [reconfigure, hf, if_true]
    generalize seq (seq (0, s) fun s => buildFrom env c (purgeAll s)) (store env c) = t at h2 ⊢
    split
    · exact ne_send env _ _ h2
    · exact h2
  | false =>
    have h2 := ne_later env c _ (ne_seq _ _ (ne_send env .pre s h) hb)
    simp only [reconfigure, hf, Bool.false_eq_true, if_false]
    generalize later env c (seq (sendMsg env .pre s) fun s => buildFrom env c (purgeAll s)) = t at h2 ⊢
    split
    · exact ne_send env _ _ h2
    · exact h2
end heap

private theorem cases_of (hc : ∀ c, env.copy c = (true, c)) (c : Cfg T) (s : St T W) (hn : s.first = false) (h0 : s.heap ≠ []) :
    ∃ l e s', reconfigure env c s = (e, s') ∧ s'.registry = l ++ s.keep ∧ s'.first = false ∧ s'.keep = s.keep ∧ (s'.parsed = c ∨ s'.parsed = s.parsed ∧ e ≠ 0) := by
  rcases hp : told env s.msgs .pre s.registry s.w with ⟨e, w⟩
  by_cases he : e = 0
  · subst he
    by_cases h1 : (attempt env c s.heap.length w).err = 0
    · obtain ⟨s', a1, a2, a3, -, -, -, a4, a5, -, -⟩ := c106_applied env c s hn h0 w hp h1 c (hc c)
      exact ⟨_, _, s', a1, a2, a4, a5, .inl a3⟩
    · by_cases h2 : s.reloadLast = true ∧
          (attempt env s.parsed (s.heap.length + (attempt env c s.heap.length w).new.length) (attempt env c s.heap.length w).w).err = 0
      · obtain ⟨e, s', a1, a0, a2, a3, -, a4, a5, -, -⟩ := c106_rolled_back env c s hn h0 w hp h1 h2.1 _ rfl h2.2
        refine ⟨_, _, s', a1, a2, a4, a5, .inr ⟨a3, ?_⟩⟩
        rcases a0 with ⟨rfl, -⟩ | ⟨h, -⟩
        · decide
        · exact h
      · obtain ⟨s', l, a1, a2, -, a3, -, a4, a5, -, -⟩ := c106_failed env c s hn h0 w hp h1 (by
          cases hr : s.reloadLast with
          | false => exact .inl rfl
          | true => exact .inr fun e => h2 ⟨hr, e⟩)
        exact ⟨_, _, s', a1, a2, a4, a5, .inr ⟨a3, h1⟩⟩
  · obtain ⟨b1, b2, b3⟩ := c106_before_fails env c s hn h0 e w he hp
    cases hr : s.reloadLast with
    | false =>
      obtain ⟨s', a1, a2, -, a3, -, a4, a5, -, -⟩ := b1 hr
      exact ⟨_, _, s', a1, a2, a4, a5, .inr ⟨a3, he⟩⟩
    | true =>
      by_cases h2 : (attempt env s.parsed s.heap.length w).err = 0
      · obtain ⟨e', s', a1, a0, a2, a3, -, a4, a5, -, -⟩ := b2 hr h2
        exact ⟨_, _, s', a1, a2, a4, a5, .inr ⟨a3, a0⟩⟩
      · obtain ⟨s', a1, a2, a3, -, a4, a5, -, -⟩ := b3 hr h2
        exact ⟨_, _, s', a1, a2, a4, a5, .inr ⟨a3, he⟩⟩

/-- Several reconfigurations one after the other. -/
def run (env : Env T W) : List (Cfg T) → St T W → St T W
  | [], s => s
  | c :: cs, s => run env cs (reconfigure env c s).2

/-- **C106.** In every history: the objects that are kept are registered after every call; the last valid configuration is the one
of the beginning or one that was given; and it is the one of a call that answers no error. -/
theorem c106_history (hc : ∀ c, env.copy c = (true, c)) (cs : List (Cfg T)) (c : Cfg T) (s : St T W) (hn : s.first = false) (h0 : s.heap ≠ []) :
    (run env cs s).parsed ∈ s.parsed :: cs ∧ (∃ l, (reconfigure env c (run env cs s)).2.registry = l ++ s.keep) ∧
      ((reconfigure env c (run env cs s)).1 = 0 → (reconfigure env c (run env cs s)).2.parsed = c) ∧
      ((reconfigure env c (run env cs s)).2.parsed = c ∨ (reconfigure env c (run env cs s)).2.parsed = (run env cs s).parsed) := by
  have inv : ∀ (cs : List (Cfg T)) (s : St T W), s.first = false → s.heap ≠ [] → (run env cs s).first = false ∧ (run env cs s).heap ≠ [] ∧ (run env cs s).keep = s.keep ∧
      (run env cs s).parsed ∈ s.parsed :: cs := by
    intro cs
    induction cs with
    | nil => intro s a b; exact ⟨a, b, rfl, by simp [run]⟩
    | cons c cs ih =>
      intro s a b
      obtain ⟨l, e, s', h1, h2, h3, h4, h5⟩ := cases_of env hc c s a b
      have hs : s' = (reconfigure env c s).2 := by rw [h1]
      obtain ⟨i1, i2, i3, i4⟩ := ih s' h3 (by rw [hs]; exact ne_reconf env c s b)
      rw [run, ← hs]
      refine ⟨i1, i2, i3.trans h4, ?_⟩
      rcases List.mem_cons.mp i4 with h | h
      · rcases h5 with h6 | ⟨h6, -⟩ <;> rw [h, h6] <;> simp
      · simp [h]
  obtain ⟨i1, i2, i3, i4⟩ := inv cs s hn h0
  obtain ⟨l, e, s', h1, h2, h3, h4, h5⟩ := cases_of env hc c (run env cs s) i1 i2
  rw [h1]
  refine ⟨i4, ⟨l, by rw [h2, i3]⟩, ?_, ?_⟩
  · intro he
    rcases h5 with h6 | ⟨-, h6⟩
    · exact h6
    · exact absurd he h6
  · rcases h5 with h6 | ⟨h6, -⟩
    · exact .inl h6
    · exact .inr h6

/-- The first loading: the objects of the configuration are registered, and it is the last valid one if they could be built. -/
theorem c106_first (c : Cfg T) (s : St T W) (hn : s.first = true) (h0 : s.heap ≠ []) (hm : s.msgs = []) (hc : env.copy c = (true, c)) (b : Bool) (roots : List Nat)
    (new : List (List Nat)) (w : W) (hb : env.build c s.heap.length s.w = ((b, roots, new), w)) :
    ∃ s', reconfigure env c s = (if b then 0 else 4, s') ∧ s'.registry = roots ∧ s'.parsed = (if b then c else s.parsed) ∧ s'.first = false ∧ s'.sent = s.sent := by
  obtain ⟨first, rl, parsed, keep, msgs, heap, sent, w0⟩ := s
  simp only at *
  subst hn hm
  obtain ⟨G, hG, hl, hr, -⟩ := purged (⟨true, rl, parsed, keep, [], heap, sent, w0⟩ : St T W)
  simp only at hl hr
  have hGn : G ≠ [] := pos_of (n := 0) h0 (by simpa using hl)
  have hG0 : (G[0]?).getD [] = [] := hr 0 .self
  have hreg : ∀ (f r : Bool) (p : Cfg T) (k : List Nat) (m : List Kind) (z : List Kind) (v : W), (⟨f, r, p, k, m, G, z, v⟩ : St T W).registry = [] :=
    fun _ _ _ _ _ _ _ => hG0
  have hset : ((G.set 0 roots ++ new)[0]?).getD [] = roots := by
    rw [List.getElem?_append_left (by rw [List.length_set, hl]; exact List.length_pos_iff.mpr h0), set_zero _ hGn]
  cases b with
  | true =>
    simp only [reconfigure, if_true, seq_ok, hG, buildFrom, hreg, hl, hb, List.nil_append, store, hc, zero_cleared, Bool.true_or, send_eq, told, List.not_mem_nil, if_false,
      Bool.and_false, Bool.false_eq_true]
    exact ⟨_, rfl, hset, rfl, rfl, by simp [those]⟩
  | false =>
    have h4 : error initialisationErrorBit ≠ 0 := by decide
    simp only [reconfigure, if_true, seq_ok, hG, buildFrom, hreg, hl, hb, List.nil_append, Bool.false_eq_true, if_false, seq_err h4, not_cleared h4, Bool.or_self]
    exact ⟨_, rfl, hset, rfl, rfl, rfl⟩

section text
variable (parse : Lang → List (BitVec 8) → Option (Cfg T)) (lang : Lang) (hash : Option (List (BitVec 8) → BitVec 32)) (text : List (BitVec 8)) (offered : BitVec 32) (s : St T W)

/-- A text that cannot be parsed, or whose hash is not the one that is offered, is refused: nothing changes. A text with this hash
is loaded. -/
theorem c106_text :
    (lang = .unknown ∨ parse lang text = none → ∃ e, e ≠ 0 ∧ reconfigureText env parse lang text s = (e, s)) ∧
    (∀ c, lang ≠ .unknown → parse lang text = some c → reconfigureText env parse lang text s = reconfigure env c s) ∧
    ((∀ h, hash = some h → h text ≠ offered) → ∃ e, e ≠ 0 ∧ reconfigureHashed env parse lang hash text offered s = (e, s)) ∧
    (∀ h c, hash = some h → h text = offered → lang ≠ .unknown → parse lang text = some c →
      reconfigureHashed env parse lang hash text offered s = reconfigure env c s) := by
  have h2 : ∀ c, lang ≠ .unknown → parse lang text = some c → reconfigureText env parse lang text s = reconfigure env c s := by
    intro c h1 h2
    rw [reconfigureText, if_neg h1, h2]
  refine ⟨?_, h2, ?_, ?_⟩
  · intro h
    by_cases h1 : lang = .unknown
    · exact ⟨error parametersErrorBit, by decide, by rw [reconfigureText, if_pos h1]⟩
    · exact ⟨error initialisationErrorBit, by decide, by rw [reconfigureText, if_neg h1, h.resolve_left h1]⟩
  · intro h
    refine ⟨error fatalErrorBit, by decide, ?_⟩
    cases hash with
    | none => rfl
    | some f => simp only [reconfigureHashed]; rw [if_pos (h f rfl)]
  · intro f c hf ho hl hp
    subst hf
    simp only [reconfigureHashed]
    rw [if_neg (by rw [ho]; simp), h2 c hl hp]

private theorem delete_filter (name : List Char) : ∀ (c : Cfg T), (c.map (·.1)).Nodup → name ∈ c.map (·.1) → deleteNode name c = some (c.filter fun x => decide (x.1 ≠ name))
  | [], _, h => by cases h
  | (n, t) :: c, hd, h => by
    rw [List.map_cons, List.nodup_cons] at hd
    rw [deleteNode]
    by_cases hn : n = name
    · rw [if_pos hn, List.filter_cons_of_neg (by simp [hn])]
      congr 1
      symm
      rw [List.filter_eq_self]
      intro x hx
      simp only [decide_eq_true_eq]
      intro e
      exact hd.1 (by simp only; rw [hn, ← e]; exact List.mem_map_of_mem hx)
    · rw [if_neg hn, delete_filter name c hd.2 ((List.mem_cons.mp h).resolve_left (fun e => hn e.symm)), List.filter_cons_of_pos (by simp [hn])]
      rfl

private theorem delete_none (name : List Char) : ∀ (c : Cfg T), name ∉ c.map (·.1) → deleteNode name c = none
  | [], _ => rfl
  | (n, t) :: c, h => by
    rw [deleteNode, if_neg (fun e => h (by simp [e])), delete_none name c (fun e => h (by rw [List.map_cons]; exact List.mem_cons_of_mem _ e))]
    rfl

private theorem filter_nodup (c : Cfg T) (p : List Char × T → Bool) (h : (c.map (·.1)).Nodup) : ((c.filter p).map (·.1)).Nodup :=
  List.Nodup.sublist (List.Sublist.map _ List.filter_sublist) h

private theorem strip_eq : ∀ (ns : List (List Char)) (c : Cfg T), (c.map (·.1)).Nodup → ns.Nodup → (∀ n ∈ ns, ('+' :: n) ∈ c.map (·.1)) →
    stripKept ns c = (0, c.filter fun x => decide (∀ n ∈ ns, x.1 ≠ '+' :: n))
  | [], c, _, _, _ => by
    rw [stripKept, List.filter_eq_self.mpr (by simp)]
  | n :: ns, c, hc, hd, hm => by
    rw [List.nodup_cons] at hd
    rw [stripKept, delete_filter _ c hc (hm n (by simp))]
    simp only
    rw [strip_eq ns _ (filter_nodup c _ hc) hd.2, List.filter_filter]
    · congr 1
      apply List.filter_congr
      intro x _
      simp only [List.mem_cons, forall_eq_or_imp, Bool.decide_and, Bool.and_comm]
    · intro m hmm
      have h1 := hm m (by simp [hmm])
      rw [List.mem_map] at h1 ⊢
      obtain ⟨x, hx, e⟩ := h1
      refine ⟨x, List.mem_filter.mpr ⟨hx, ?_⟩, e⟩
      simp only [decide_eq_true_eq]
      rw [e]
      intro e2
      rw [List.cons.injEq] at e2
      exact hd.1 (e2.2 ▸ hmm)

private theorem strip_missing : ∀ (ns : List (List Char)) (c : Cfg T), (∃ n ∈ ns, ('+' :: n) ∉ c.map (·.1)) → (stripKept ns c).1 = error parametersErrorBit := by
  intro ns
  induction ns with
  | nil => intro c h; obtain ⟨n, h, -⟩ := h; cases h
  | cons n ns ih =>
    intro c h
    rw [stripKept]
    split
    · rfl
    · rename_i c' hc'
      apply ih
      obtain ⟨m, hm, hmm⟩ := h
      have hsub : ∀ (nm : List Char) (c c' : Cfg T), deleteNode nm c = some c' → ∀ x ∈ c'.map (·.1), x ∈ c.map (·.1) := by
        intro nm c
        induction c with
        | nil => intro c' h; cases h
        | cons a c ihc =>
          intro c' h x hx
          rw [deleteNode] at h
          split at h
          · rw [Option.some_inj] at h; subst h
            exact List.mem_cons_of_mem _ hx
          · rw [Option.map_eq_some_iff] at h
            obtain ⟨d, hd, rfl⟩ := h
            rw [List.map_cons, List.mem_cons] at hx ⊢
            exact hx.imp id (ihc d hd x)
      rcases List.mem_cons.mp hm with rfl | hm
      · exfalso
        rw [delete_none _ c hmm] at hc'
        cases hc'
      · exact ⟨m, hm, fun e => hmm (hsub _ _ _ hc' _ e)⟩

/-- `Configure`: the last valid configuration is the one that was loaded without the parameters of the loader and without the
objects that are kept, so that these are not built again with it. -/
theorem c106_configure (hn : s.first = true) (h0 : s.heap ≠ []) (hm : s.msgs = []) (setup : List (List Nat) → Err × Setup) (c : Cfg T) (hl : lang ≠ .unknown)
    (hp : parse lang text = some c) (hc : env.copy c = (true, c)) (hb : (env.build c s.heap.length s.w).1.1 = true)
    (hs : ∀ h, (setup h).1 = 0) (p : Setup) (hs2 : ∀ h, (setup h).2 = p) (hd : (c.map (·.1)).Nodup) (hk : (p.keep.map (·.2)).Nodup)
    (hin : ∀ k ∈ p.keep, ('+' :: k.2) ∈ c.map (·.1) ∧ k.2 ≠ "LoaderPostInit".toList) :
    ∃ s', configure env parse lang setup text s = (0, s') ∧ s'.first = false ∧ s'.keep = p.keep.map (·.1) ∧ s'.msgs = p.msgs ∧ s'.reloadLast = p.reloadLast ∧
      s'.parsed = c.filter (fun x => decide (x.1 ≠ '+' :: "LoaderPostInit".toList ∧ ∀ k ∈ p.keep, x.1 ≠ '+' :: k.2)) := by
  rcases hbb : env.build c s.heap.length s.w with ⟨⟨b, roots, new⟩, w⟩
  rw [hbb] at hb
  simp only at hb
  subst hb
  obtain ⟨s1, a1, -, a2, a3, -⟩ := c106_first env c s hn h0 hm hc true roots new w hbb
  simp only [if_true] at a1 a2
  have ht := (c106_text env parse lang none text 0 s).2.1 c hl hp
  have hlo : "+LoaderPostInit".toList = '+' :: "LoaderPostInit".toList := by decide
  have hdel : (deleteNode ('+' :: "LoaderPostInit".toList) c).getD c = c.filter (fun x => decide (x.1 ≠ '+' :: "LoaderPostInit".toList)) := by
    generalize '+' :: "LoaderPostInit".toList = nm
    by_cases h : nm ∈ c.map (·.1)
    · rw [delete_filter nm c hd h]; rfl
    · rw [delete_none nm c h, Option.getD_none]
      symm
      rw [List.filter_eq_self]
      intro x hx
      simp only [decide_eq_true_eq]
      intro e
      exact h (e ▸ List.mem_map_of_mem hx)
  have hstrip := strip_eq (p.keep.map (·.2)) (c.filter (fun x => decide (x.1 ≠ '+' :: "LoaderPostInit".toList))) (filter_nodup c _ hd) hk (by
    intro n hn'
    obtain ⟨k, hk1, rfl⟩ := List.mem_map.mp hn'
    obtain ⟨h1, h2⟩ := hin k hk1
    obtain ⟨x, hx, e⟩ := List.mem_map.mp h1
    refine List.mem_map.mpr ⟨x, List.mem_filter.mpr ⟨hx, ?_⟩, e⟩
    simp only [decide_eq_true_eq]
    rw [e]
    intro e2
    rw [List.cons.injEq] at e2
    exact h2 e2.2)
  refine ⟨⟨s1.first, p.reloadLast, c.filter (fun x => decide (x.1 ≠ '+' :: "LoaderPostInit".toList ∧ ∀ k ∈ p.keep, x.1 ≠ '+' :: k.2)), p.keep.map (·.1), p.msgs,
    s1.heap, s1.sent, s1.w⟩, ?_, a3, rfl, rfl, rfl, rfl⟩
  rw [configure, ht, a1]
  simp only [zero_cleared, if_true, hs, hs2, a2, hlo, hdel, hstrip, List.filter_filter]
  congr 2
  apply List.filter_congr
  intro x _
  simp only [List.mem_map, forall_exists_index, and_imp, forall_apply_eq_imp_iff₂, Bool.decide_and, Bool.and_comm]

/-- **C106 (disagreement).** An object that is kept but is not written `+name` at the root of the configuration (it is written with
`$`, or it is inside another one): the configuration is loaded, and then `Configure` answers an error. -/
theorem c106_kept_fails (setup : List (List Nat) → Err × Setup) (s1 : St T W) (h1 : reconfigureText env parse lang text s = (0, s1)) (hs : (setup s1.heap).1 = 0)
    (k : Nat × List Char) (hk : k ∈ (setup s1.heap).2.keep) (hno : ('+' :: k.2) ∉ s1.parsed.map (·.1)) :
    (configure env parse lang setup text s).1 = error parametersErrorBit := by
  rw [configure, h1]
  simp only [zero_cleared, if_true, hs]
  apply strip_missing
  refine ⟨k.2, List.mem_map_of_mem hk, ?_⟩
  generalize "+LoaderPostInit".toList = nm
  have hsub : ∀ (c c' : Cfg T), deleteNode nm c = some c' → ∀ x ∈ c'.map (·.1), x ∈ c.map (·.1) := by
    intro c
    induction c with
    | nil => intro c' h; cases h
    | cons a c ihc =>
      intro c' h x hx
      rw [deleteNode] at h
      split at h
      · rw [Option.some_inj] at h; subst h
        exact List.mem_cons_of_mem _ hx
      · rw [Option.map_eq_some_iff] at h
        obtain ⟨d, hd, rfl⟩ := h
        rw [List.map_cons, List.mem_cons] at hx ⊢
        exact hx.imp id (ihc d hd x)
  cases hd : deleteNode nm s1.parsed with
  | none => exact hno
  | some c' => exact fun e => hno (hsub _ _ hd _ e)

end text

/-- **C106 (disagreement).** An object that is kept, if it is a container and is registered, has lost its contents after the
reconfiguration. -/
theorem c106_emptied_fails (c : Cfg T) (s : St T W) (hn : s.first = false) (w : W) (hpre : told env s.msgs .pre s.registry s.w = (0, w))
    (hok : (attempt env c s.heap.length w).err = 0) (hc : env.copy c = (true, c)) (k : Nat) (hk : k ∈ s.keep) (h0 : k ≠ 0) (hr : k ∈ s.registry) (x : Nat) (kids : List Nat)
    (hkids : s.heap[k]? = some (x :: kids)) :
    k ∈ (reconfigure env c s).2.registry ∧ (reconfigure env c s).2.heap[k]? = some [] := by
  have hlt : k < s.heap.length := (List.getElem?_eq_some_iff.mp hkids).1
  have hne : s.heap ≠ [] := by intro e; rw [e] at hlt; cases hlt
  obtain ⟨s', a1, a2, -, -, a3, -⟩ := c106_applied env c s hn hne w hpre hok c hc
  rw [a1]
  exact ⟨by rw [a2]; simp [hk], a3 k h0 hlt (.step .self hr)⟩

/-- **C106 (disagreement).** If the message after cannot be delivered, the answer is an error although the configuration has been
loaded and is the last valid one. -/
theorem c106_after_fails (c : Cfg T) (s : St T W) (hn : s.first = false) (h0 : s.heap ≠ []) (w : W) (hpre : told env s.msgs .pre s.registry s.w = (0, w))
    (hok : (attempt env c s.heap.length w).err = 0) (hc : env.copy c = (true, c))
    (hpost : (told env s.msgs .post ((attempt env c s.heap.length w).roots ++ s.keep) (attempt env c s.heap.length w).w).1 ≠ 0) :
    (reconfigure env c s).1 ≠ 0 ∧ (reconfigure env c s).2.parsed = c ∧ (reconfigure env c s).2.registry = (attempt env c s.heap.length w).roots ++ s.keep := by
  obtain ⟨s', a1, a2, a3, -⟩ := c106_applied env c s hn h0 w hpre hok c hc
  rw [a1]
  exact ⟨hpost, a3, a2⟩

section apps
variable {V : Type} (isApp : Nat → Bool) (conf : Nat → V → Bool × V)

private theorem apps_ok (hc : ∀ o v, (conf o v).1 = true) : ∀ (l : List Nat) (f : Bool) (apps : List Nat) (v : V),
    (configureApps isApp conf l f apps v).1 = (if f || l.any isApp then 0 else error parametersErrorBit) ∧
    (configureApps isApp conf l f apps v).2.1 = apps ++ l.filter isApp
  | [], f, apps, v => by simp [configureApps]
  | o :: l, f, apps, v => by
    rw [configureApps]
    cases ho : isApp o with
    | true =>
      simp only [if_true, hc]
      obtain ⟨h1, h2⟩ := apps_ok hc l true (apps ++ [o]) (conf o v).2
      rw [h1, h2, List.filter_cons_of_pos ho]
      simp [ho]
    | false =>
      simp only [Bool.false_eq_true, if_false]
      obtain ⟨h1, h2⟩ := apps_ok hc l f apps v
      rw [h1, h2, List.filter_cons_of_neg (by simp [ho])]
      simp [ho]

/-- **C106 (disagreement).** `RealTimeLoader`: after a reconfiguration the applications of the loader, which `Start` and `Stop` use,
are those of the configuration before and then those of the new one. -/
theorem c106_apps_fails (hc : ∀ o v, (conf o v).1 = true) (before after : List Nat) (v v2 : V) :
    (configureApps isApp conf after false (configureApps isApp conf before false [] v).2.1 v2).2.1 = before.filter isApp ++ after.filter isApp := by
  rw [(apps_ok isApp conf hc after false _ v2).2, (apps_ok isApp conf hc before false [] v).2]
  rfl

/-- Every application of the registry is configured; without any the answer is an error. -/
theorem c106_apps (hc : ∀ o v, (conf o v).1 = true) (l apps : List Nat) (v : V) :
    (configureApps isApp conf l false apps v).1 = (if ∃ o ∈ l, isApp o = true then 0 else error parametersErrorBit) ∧
    (configureApps isApp conf l false apps v).2.1 = apps ++ l.filter isApp := by
  obtain ⟨h1, h2⟩ := apps_ok isApp conf hc l false apps v
  rw [h1, h2]
  refine ⟨?_, rfl⟩
  by_cases h : ∃ o ∈ l, isApp o = true
  · rw [if_pos h, if_pos (by simpa using h)]
  · rw [if_neg h, if_neg (by simpa using h)]

/-- `Stop`: the applications are stopped in order; after the first that cannot be stopped, no other is. -/
theorem c106_stop (stop : Nat → V → Err × V) : ∀ (done : List Nat) (o : Nat) (rest : List Nat) (v : V), (∀ a ∈ done, ∀ v, (stop a v).1 = 0) → (∀ v, (stop o v).1 ≠ 0) →
    stopApps stop (done ++ o :: rest) v = stop o (done.foldl (fun v a => (stop a v).2) v) ∧
    stopApps stop done v = (0, done.foldl (fun v a => (stop a v).2) v)
  | [], o, rest, v, _, h => by simp [stopApps, not_cleared (h v)]
  | a :: done, o, rest, v, h1, h2 => by
    have h3 := h1 a (by simp) v
    obtain ⟨i1, i2⟩ := c106_stop stop done o rest (stop a v).2 (fun b hb => h1 b (by simp [hb])) h2
    rw [List.cons_append, stopApps, stopApps, List.foldl_cons, h3]
    simp only [zero_cleared, if_true]
    exact ⟨i1, i2⟩

end apps

/-- `ConfigurationLoaderTCP`: a text without zeros, of which every read but the last gives 1024 bytes, is received whole. -/
theorem c106_tcp_partial : ∀ (full : List (List (BitVec 8))) (last : List (BitVec 8)) (rest : List (List (BitVec 8))), (∀ r ∈ full, r.length = 1024) → last.length < 1024 →
    0 ∉ (full.flatten ++ last) → receive (full ++ last :: rest) = some (full.flatten ++ last)
  | [], last, rest, _, hl, hz => by
    rw [List.nil_append, receive]
    by_cases h0 : last.length = 0
    · rw [if_pos h0, List.length_eq_zero_iff.mp h0]; rfl
    · rw [if_neg h0]
      simp only
      rw [if_neg (by omega)]
      congr 1
      have : ∀ l : List (BitVec 8), 0 ∉ l → l.takeWhile (· ≠ 0) = l := by
        intro l hl
        induction l with
        | nil => rfl
        | cons b l ih =>
          rw [List.takeWhile_cons, if_pos (by simp only [decide_eq_true_eq]; exact fun e => hl (by rw [e]; exact List.mem_cons_self)),
            ih (fun e => hl (List.mem_cons_of_mem _ e))]
      exact this last (fun e => hz (List.mem_append_right _ e))
  | r :: full, last, rest, hf, hl, hz => by
    have hr := hf r (by simp)
    rw [List.flatten_cons, List.append_assoc] at hz
    rw [List.cons_append, receive, if_neg (by omega)]
    simp only
    rw [if_pos hr, c106_tcp_partial full last rest (fun x hx => hf x (by simp [hx])) hl (fun e => hz (List.mem_append_right _ e)), Option.map_some, List.flatten_cons,
      List.append_assoc]
    congr 2
    have : ∀ l : List (BitVec 8), 0 ∉ l → l.takeWhile (· ≠ 0) = l := by
      intro l hl
      induction l with
      | nil => rfl
      | cons b l ih =>
        rw [List.takeWhile_cons, if_pos (by simp only [decide_eq_true_eq]; exact fun e => hl (by rw [e]; exact List.mem_cons_self)),
          ih (fun e => hl (List.mem_cons_of_mem _ e))]
    exact this r (fun e => hz (List.mem_append_left _ e))

/-- **C106 (disagreement).** A text of which the network delivers first fewer than 1024 bytes: the rest is never read. -/
theorem c106_tcp_fails (r : List (BitVec 8)) (rest : List (List (BitVec 8))) (h : r.length < 1024) :
    ∃ t, receive (r :: rest) = some t ∧ t.length ≤ r.length := by
  rw [receive]
  split
  · exact ⟨[], rfl, by simp⟩
  · simp only
    rw [if_neg (by omega)]
    exact ⟨_, rfl, (List.takeWhile_sublist _).length_le⟩

/-- A text of whole kilobytes: the loop waits for more. -/
theorem c106_tcp_waits_fails : ∀ (full : List (List (BitVec 8))), (∀ r ∈ full, r.length = 1024) → receive full = none
  | [], _ => rfl
  | r :: full, h => by
    have hr := h r (by simp)
    rw [receive, if_neg (by omega)]
    simp only
    rw [if_pos hr, c106_tcp_waits_fails full (fun x hx => h x (by simp [hx]))]
    rfl

/-! ### A concrete case -/

/-- Each node of a configuration is an object; a node with the value 0 cannot be built. -/
def sample : Env Nat Nat :=
  ⟨fun c n w => ((c.all (·.2 ≠ 0), (List.range c.length).map (· + n), c.map fun _ => []), w + 1), fun _ w => (0, w), fun _ _ w => (0, w), fun c => (true, c)⟩

/-- The registry has the objects 1, which contains 2 and is kept, and 3. -/
def here : St Nat Nat := ⟨false, true, [("+B".toList, 5)], [1], [.pre, .reloaded, .post], [[1, 3], [2], [], []], [], 0⟩

/-- The hypotheses of `c106_applied`, `c106_emptied_fails` and `c106_rolled_back` hold. -/
example : told sample here.msgs .pre here.registry here.w = (0, 0) ∧ (attempt sample [("+C".toList, 1)] here.heap.length 0).err = 0 ∧
    (attempt sample [("+C".toList, 0)] here.heap.length 0).err ≠ 0 ∧ (attempt sample here.parsed 5 1).err = 0 ∧ 1 ∈ here.registry := by decide +kernel

example : ((reconfigure sample [("+C".toList, 1)] here).1, (reconfigure sample [("+C".toList, 1)] here).2.registry, (reconfigure sample [("+C".toList, 1)] here).2.sent) =
    (0, [4, 1], [.pre, .post]) := by decide +kernel

example : ((reconfigure sample [("+C".toList, 0)] here).1, (reconfigure sample [("+C".toList, 0)] here).2.registry, (reconfigure sample [("+C".toList, 0)] here).2.sent) =
    (2, [5, 1], [.pre, .reloaded, .post]) := by decide +kernel

end Verif.Loader
