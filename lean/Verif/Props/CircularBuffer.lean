import Verif.Model.CircularBuffer

/-! ## Specification, on traces -/
namespace Verif.Spec.CircularBuffer
open Verif.CircularBuffer

variable {α : Type}

/-- The samples the driver has put in memory, in order. -/
def produced (tr : List (Obs α)) : List α := tr.filterMap fun
  | .produced d => some d
  | _ => none

/-- The number of samples announced. -/
def marked (tr : List (Obs α)) : Nat := tr.countP fun
  | .marked => true
  | _ => false

/-- The number of samples released by the reader. -/
def released (tr : List (Obs α)) : Nat := tr.countP fun
  | .released => true
  | _ => false

/-- The reads completed. -/
def reads (tr : List (Obs α)) : List (List (Option α)) := tr.filterMap fun
  | .read l => some l
  | _ => none

/-- The `N` samples before the position `a` (nothing before the first one). -/
def window (xs : List α) (N a : Nat) : List (Option α) :=
  (List.range N).map fun j => if a + j < N then none else xs[a + j - N]?

/-- The number of samples announced when the last search for new samples ended. -/
def newest : List (Obs α) → Nat → Nat → Nat
  | [], _, e => e
  | .marked :: tr, m, e => newest tr (m + 1) e
  | .scanned :: tr, m, _ => newest tr m m
  | _ :: tr, m, e => newest tr m e

/-- The driver is not too far ahead of the reader: of `n` buffers, `N` (one, for the synchronising signal) stay free of
samples not yet released, and `N` when the search for new samples ends. -/
def Roomy (cfg : Cfg) (tr : List (Obs α)) : Prop :=
  ∀ t, t <+: tr →
    (produced t).length + (if cfg.sync then 1 else cfg.N) ≤ released t + cfg.n ∧
    (t.getLast? = some .scanned → marked t + cfg.N ≤ released t + cfg.n)

end Verif.Spec.CircularBuffer

namespace Verif.CircularBuffer
open Verif.Spec.CircularBuffer

variable {α : Type}

private theorem mod_pred {n a : Nat} (hn : 0 < n) : next n ((a + n - 1) % n) = a % n := by
  unfold next
  have h1 : (a + n - 1) % n < n := Nat.mod_lt _ hn
  have h2 : (a + n) % n = a % n := Nat.add_mod_right a n
  split
  · rename_i h
    have : (a + n - 1) % n = n - 1 := by omega
    have h3 : (a + n - 1 + 1) % n = 0 := by
      rw [Nat.add_mod, this]
      by_cases h1 : n = 1
      · subst h1; simp
      · rw [Nat.mod_eq_of_lt (show 1 < n by omega), Nat.sub_add_cancel hn, Nat.mod_self]
    rw [show a + n - 1 + 1 = a + n by omega] at h3
    omega
  · rename_i h
    have h3 : (a + n - 1 + 1) % n = (a + n - 1) % n + 1 := by
      rw [Nat.add_mod, Nat.mod_eq_of_lt (show 1 < n by omega)]
      exact Nat.mod_eq_of_lt (by omega)
    rw [show a + n - 1 + 1 = a + n by omega] at h3
    omega

private theorem pred_succ {n a : Nat} (_hn : 0 < n) : (a + 1 + n - 1) % n = a % n := by
  rw [show a + 1 + n - 1 = a + n by omega, Nat.add_mod_right]

private theorem next_mod {n a : Nat} (hn : 0 < n) : next n (a % n) = (a + 1) % n := by
  have := mod_pred (a := a + 1) hn
  rwa [pred_succ hn] at this

private theorem mod_window {n a b : Nat} (h : a % n = b % n) (h1 : a ≤ b) (h2 : b < a + n) : a = b := by
  have e1 := Nat.div_add_mod a n
  have e2 := Nat.div_add_mod b n
  have hq : a / n ≤ b / n := Nat.div_le_div_right h1
  rcases Nat.lt_or_ge (a / n) (b / n) with hlt | hge
  · have : n * (a / n) + n ≤ n * (b / n) := by
      rw [← Nat.mul_succ]; exact Nat.mul_le_mul_left n hlt
    omega
  · have h3 : a / n = b / n := by omega
    rw [h3] at e1
    omega

private theorem sub_slot {n x b : Nat} (h : n < 2 ^ 31) (hx : x < n) (hb : b ≤ n) :
    (let y := (x + 2 ^ 32 - b) % 2 ^ 32; if y ≥ n then (y + n) % 2 ^ 32 else y) = if b ≤ x then x - b else x + n - b := by
  simp only
  by_cases h1 : b ≤ x
  · rw [if_pos h1, show x + 2 ^ 32 - b = (x - b) + 2 ^ 32 by omega, Nat.add_mod_right, Nat.mod_eq_of_lt (by omega),
      if_neg (by omega)]
  · rw [if_neg h1, Nat.mod_eq_of_lt (show x + 2 ^ 32 - b < 2 ^ 32 by omega), if_pos (by omega),
      show x + 2 ^ 32 - b + n = (x + n - b) + 2 ^ 32 by omega, Nat.add_mod_right, Nat.mod_eq_of_lt (by omega)]

private theorem slot_sub {n x b : Nat} :
    (if b ≤ x then x - b else x + n - b) % n = (x + n - b) % n := by
  split
  · rw [show x + n - b = (x - b) + n by omega, Nat.add_mod_right]
  · rfl

private theorem back_eq {n a b : Nat} (hn : 0 < n) (h : n < 2 ^ 31) (hb : b < n) (hba : b ≤ a) :
    back n ((a + n - 1) % n) b = (a - b + n - 1) % n := by
  have hx := Nat.mod_lt (a + n - 1) hn
  unfold back
  rw [sub_slot h hx (by omega)]
  have h1 : (if b ≤ (a + n - 1) % n then (a + n - 1) % n - b else (a + n - 1) % n + n - b) < n := by
    split <;> omega
  rw [← Nat.mod_eq_of_lt h1, slot_sub]
  have h2 : ((a + n - 1) % n + n - b) % n = ((a + n - 1) % n + (n - b)) % n := by congr 1; omega
  rw [h2, Nat.mod_add_mod, show a + n - 1 + (n - b) = (a - b + n - 1) + n by omega, Nat.add_mod_right]

private theorem offset_eq {n a N j : Nat} (hn : 0 < n) (h : n < 2 ^ 31) (hN : 0 < N) (hNn : N ≤ n) :
    (offset n ((a + n - 1) % n) N + j) % n = (a + n - N + j) % n := by
  have hx := Nat.mod_lt (a + n - 1) hn
  have := sub_slot h hx (b := N - 1) (by omega)
  have he : (a + n - 1) % n + 2 ^ 32 - N + 1 = (a + n - 1) % n + 2 ^ 32 - (N - 1) := by omega
  unfold offset
  rw [he, this, Nat.add_mod, slot_sub, ← Nat.add_mod]
  have h2 : (a + n - 1) % n + n - (N - 1) + j = (a + n - 1) % n + (n - (N - 1) + j) := by omega
  rw [h2, Nat.mod_add_mod, show a + n - 1 + (n - (N - 1) + j) = (a + n - N + j) + n by omega, Nat.add_mod_right]

private theorem window_append (xs ys : List α) (N a : Nat) (h : a ≤ xs.length) :
    window (xs ++ ys) N a = window xs N a := by
  unfold window
  apply List.map_congr_left
  intro j hj
  have hj := List.mem_range.mp hj
  split
  · rfl
  · rw [List.getElem?_append_left (by omega)]

private theorem newest_append (tr us : List (Obs α)) (m e : Nat) :
    newest (tr ++ us) m e = newest us (m + marked tr) (newest tr m e) := by
  induction tr generalizing m e with
  | nil => simp [newest, marked]
  | cons o tr ih =>
    cases o <;> simp [newest, marked, ih, Nat.add_comm, Nat.add_assoc]

/-- The phase of the reader, with the position `a` it has reached and the number `c` of samples released. -/
private def Phase (cfg : Cfg) (s : St α) (tr : List (Obs α)) (a : Nat) : Prop :=
  match s.cons with
  | .idle => a = released tr
  | .scan k => a = released tr + k ∧ s.last1 = (released tr + cfg.n - 1) % cfg.n ∧ (cfg.sync && cfg.getFirst) = false
  | .wait left => s.last1 = (released tr + cfg.n - 1) % cfg.n ∧ cfg.sync = true ∧ 0 < left ∧
      (∃ q, a + left = released tr + cfg.N * q ∧ 0 < q ∧ (cfg.getFirst = true → q = 1)) ∧
      a + left ≤ released tr + cfg.n
  | .copy j acc => s.last1 = (released tr + cfg.n - 1) % cfg.n ∧ j ≤ cfg.N ∧
      acc = (window (produced tr) cfg.N a).take j ∧
      (cfg.sync = true → ∃ q, a = released tr + cfg.N * q ∧ 0 < q ∧ (cfg.getFirst = true → q = 1)) ∧
      (cfg.sync = false → a = newest tr 0 0)
  | .clear idx => idx = (released tr + cfg.n - 1) % cfg.n

private structure Inv (cfg : Cfg) (s : St α) (tr : List (Obs α)) (a : Nat) (ws : List Nat) : Prop where
  cur : s.cur = marked tr % cfg.n
  last : s.last = (a + cfg.n - 1) % cfg.n
  ge : released tr ≤ a
  le : a ≤ marked tr
  len : (produced tr).length = marked tr + (if s.drv = .idle then 0 else 1)
  flag : ∀ i, i < cfg.n → (s.flag i = true ↔ ∃ k, released tr ≤ k ∧ k < marked tr ∧ k % cfg.n = i)
  mem : ∀ k, k < (produced tr).length → (produced tr).length ≤ k + cfg.n → s.mem (k % cfg.n) = (produced tr)[k]?
  fresh : ∀ i, i < cfg.n → (produced tr).length ≤ i → s.mem i = none
  phase : Phase cfg s tr a
  reads : reads tr = ws.map (window (produced tr) cfg.N)
  wsle : ∀ w ∈ ws, w ≤ (match s.cons with | .clear _ => a | _ => released tr)
  pair : ws.Pairwise fun x y => x + (if cfg.sync then cfg.N else 0) ≤ y
  first : cfg.sync = true → cfg.getFirst = true →
    ws = (List.range ws.length).map (fun i => (i + 1) * cfg.N) ∧
      (match s.cons with | .clear _ => a | _ => released tr) = ws.length * cfg.N

private theorem prod_app (tr us : List (Obs α)) : produced (tr ++ us) = produced tr ++ produced us := by
  simp [produced, List.filterMap_append]
private theorem mark_app (tr us : List (Obs α)) : marked (tr ++ us) = marked tr + marked us := by
  simp [marked, List.countP_append]
private theorem rel_app (tr us : List (Obs α)) : released (tr ++ us) = released tr + released us := by
  simp [released, List.countP_append]
private theorem reads_app (tr us : List (Obs α)) : reads (tr ++ us) = reads tr ++ reads us := by
  simp [Spec.CircularBuffer.reads, List.filterMap_append]

private theorem map_window_append {xs ys : List α} {N b : Nat} {ws : List Nat} (h : ∀ w ∈ ws, w ≤ b) (hb : b ≤ xs.length) :
    ws.map (window (xs ++ ys) N) = ws.map (window xs N) := by
  apply List.map_congr_left
  intro w hw
  exact window_append _ _ _ _ (Nat.le_trans (h w hw) hb)

private theorem roomy_pre {cfg : Cfg} {tr us : List (Obs α)} (h : Roomy cfg (tr ++ us)) : Roomy cfg tr :=
  fun t ht => h t (ht.trans (List.prefix_append _ _))

private theorem window_get {xs : List α} {N a j : Nat} (hj : j < N) :
    (window xs N a)[j]? = some (if a + j < N then none else xs[a + j - N]?) := by
  simp [window, hj]

private theorem window_len {xs : List α} {N a : Nat} : (window xs N a).length = N := by simp [window]

private theorem nextFlag {cfg : Cfg} {s : St α} {tr : List (Obs α)} {a : Nat} {ws : List Nat} (I : Inv cfg s tr a ws)
    (hn0 : 0 < cfg.n) (hcn : (produced tr).length < released tr + cfg.n) :
    s.flag (next cfg.n s.last) = true ↔ a < marked tr := by
  have hml : marked tr ≤ (produced tr).length := by rw [I.len]; omega
  have ge := I.ge
  have le := I.le
  rw [I.last, mod_pred hn0, I.flag _ (Nat.mod_lt _ hn0)]
  constructor
  · rintro ⟨k, h1, h2, h3⟩
    rcases Nat.le_total k a with h | h
    · have := mod_window h3 h (by omega); omega
    · have := mod_window h3.symm h (by omega); omega
  · intro h
    exact ⟨a, ge, h, rfl⟩

private theorem good_step {cfg : Cfg} (hN : 0 < cfg.N) (hNn : cfg.N ≤ cfg.n) (hn : cfg.n < 2 ^ 31) {s : St α}
    {tr : List (Obs α)} {a : Nat} {ws : List Nat} (I : Inv cfg s tr a ws) (e : Ev α) {s' : St α} {us : List (Obs α)}
    (hs : step cfg s e = some (s', us)) (hR : Roomy cfg (tr ++ us)) : ∃ a' ws', Inv cfg s' (tr ++ us) a' ws' := by
  have hn0 : 0 < cfg.n := by omega
  have R0 := (roomy_pre hR tr (List.prefix_refl _)).1
  have R1 := hR (tr ++ us) (List.prefix_refl _)
  have hpl : (produced tr).length ≤ marked tr + 1 := by rw [I.len]; split <;> omega
  have hml : marked tr ≤ (produced tr).length := by rw [I.len]; omega
  have hcn : (produced tr).length < released tr + cfg.n := by
    revert R0; split <;> omega
  have I' := I
  obtain ⟨cur, last, ge, le, len, flag, mem, fresh, phase, hreads, wsle, pair, first⟩ := I'
  have wsle' : ∀ w ∈ ws, w ≤ (produced tr).length := by
    intro w hw
    have := wsle w hw
    split at this <;> omega
  cases e with
  | write d =>
    simp only [step] at hs
    split at hs
    case isFalse => simp at hs
    rename_i hd
    simp only [Option.some.injEq, Prod.mk.injEq] at hs
    obtain ⟨rfl, rfl⟩ := hs
    rw [if_pos hd, Nat.add_zero] at len
    have e1 : produced (tr ++ [.produced d]) = produced tr ++ [d] := by rw [prod_app]; rfl
    have e2 : marked (tr ++ [.produced d]) = marked tr := by rw [mark_app]; rfl
    have e3 : released (tr ++ [.produced d]) = released tr := by rw [rel_app]; rfl
    have e4 : reads (tr ++ [.produced d]) = reads tr := by rw [reads_app]; simp [Spec.CircularBuffer.reads]
    have e5 : newest (tr ++ [.produced d]) 0 0 = newest tr 0 0 := by rw [newest_append]; rfl
    refine ⟨a, ws, ⟨?_, last, ?_, ?_, ?_, ?_, ?_, ?_, ?_, ?_, ?_, pair, ?_⟩⟩
    · rw [e2]; exact cur
    · rw [e3]; exact ge
    · rw [e2]; exact le
    · rw [e1, e2]; simp [len]
    · rw [e2, e3]; exact flag
    · rw [e1]
      intro k h1 h2
      simp only [List.length_append, List.length_singleton] at h1 h2
      simp only [setAt, cur]
      by_cases hk : k = marked tr
      · subst hk; rw [if_pos rfl, List.getElem?_append_right (by omega), len]; simp
      · rw [if_neg (fun h => hk (mod_window h (by omega) (by omega))), List.getElem?_append_left (by omega)]
        exact mem k (by omega) (by omega)
    · rw [e1]
      intro i h1 h2
      simp only [List.length_append, List.length_singleton] at h2
      simp only [setAt, cur]
      rw [Nat.mod_eq_of_lt (show marked tr < cfg.n by omega), if_neg (by omega)]
      exact fresh i h1 (by omega)
    · revert phase
      simp only [Phase]
      cases hc : s.cons <;> simp only [e1, e3, e5] <;> try exact id
      rintro ⟨p1, p2, p3, p4, p5⟩
      refine ⟨p1, p2, ?_, p4, p5⟩
      rw [window_append _ _ _ _ (by omega)]; exact p3
    · rw [e4, e1, hreads, map_window_append wsle' (Nat.le_refl _)]
    · rw [e3]; exact wsle
    · rw [e3]; exact first
  | check =>
    simp only [step] at hs
    split at hs
    case isFalse => simp at hs
    rename_i hd
    simp only [Option.some.injEq, Prod.mk.injEq] at hs
    obtain ⟨rfl, rfl⟩ := hs
    have e1 : produced (tr ++ [.checked (s.flag s.cur)]) = produced tr := by rw [prod_app]; simp [produced]
    have e2 : marked (tr ++ [.checked (s.flag s.cur)]) = marked tr := by rw [mark_app]; rfl
    have e3 : released (tr ++ [.checked (s.flag s.cur)]) = released tr := by rw [rel_app]; rfl
    have e4 : reads (tr ++ [.checked (s.flag s.cur)]) = reads tr := by rw [reads_app]; simp [Spec.CircularBuffer.reads]
    have e5 : newest (tr ++ [.checked (s.flag s.cur)]) 0 0 = newest tr 0 0 := by rw [newest_append]; rfl
    refine ⟨a, ws, ⟨?_, last, ?_, ?_, ?_, ?_, ?_, ?_, ?_, ?_, ?_, pair, ?_⟩⟩
    · rw [e2]; exact cur
    · rw [e3]; exact ge
    · rw [e2]; exact le
    · rw [e1, e2, len, hd]; rfl
    · rw [e2, e3]; exact flag
    · rw [e1]; exact mem
    · rw [e1]; exact fresh
    · revert phase
      simp only [Phase]
      cases hc : s.cons <;> simp only [e1, e3, e5] <;> exact id
    · rw [e4, e1]; exact hreads
    · rw [e3]; exact wsle
    · rw [e3]; exact first
  | mark =>
    simp only [step] at hs
    split at hs
    case isFalse => simp at hs
    rename_i hd
    simp only [Option.some.injEq, Prod.mk.injEq] at hs
    obtain ⟨rfl, rfl⟩ := hs
    have e1 : produced (tr ++ [.marked]) = produced tr := by rw [prod_app]; simp [produced]
    have e2 : marked (tr ++ [.marked]) = marked tr + 1 := by rw [mark_app]; rfl
    have e3 : released (tr ++ [.marked]) = released tr := by rw [rel_app]; rfl
    have e4 : reads (tr ++ [.marked]) = reads tr := by rw [reads_app]; simp [Spec.CircularBuffer.reads]
    have e5 : newest (tr ++ [.marked]) 0 0 = newest tr 0 0 := by rw [newest_append]; rfl
    rw [if_neg (by rw [hd]; simp)] at len
    refine ⟨a, ws, ⟨?_, last, ?_, ?_, ?_, ?_, ?_, ?_, ?_, ?_, ?_, pair, ?_⟩⟩
    · rw [e2]; simp only [cur, next_mod hn0]
    · rw [e3]; exact ge
    · rw [e2]; omega
    · rw [e1, e2, len]; simp
    · rw [e2, e3]
      intro i hi
      simp only [setAt, cur]
      by_cases h : i = marked tr % cfg.n
      · rw [if_pos h]
        simp only [true_iff]
        exact ⟨marked tr, by omega, by omega, h.symm⟩
      · rw [if_neg h, flag i hi]
        constructor
        · rintro ⟨k, h1, h2, h3⟩; exact ⟨k, h1, by omega, h3⟩
        · rintro ⟨k, h1, h2, h3⟩
          have : k ≠ marked tr := fun hk => h (by rw [← h3, hk])
          exact ⟨k, h1, by omega, h3⟩
    · rw [e1]; exact mem
    · rw [e1]; exact fresh
    · revert phase
      simp only [Phase]
      cases hc : s.cons <;> simp only [e1, e3, e5] <;> exact id
    · rw [e4, e1]; exact hreads
    · rw [e3]; exact wsle
    · rw [e3]; exact first
  | start =>
    simp only [step] at hs
    cases hc : s.cons with
    | idle =>
      simp only [hc, Option.some.injEq, Prod.mk.injEq] at hs
      obtain ⟨rfl, rfl⟩ := hs
      have e1 : produced (tr ++ [.started]) = produced tr := by rw [prod_app]; simp [produced]
      have e2 : marked (tr ++ [.started]) = marked tr := by rw [mark_app]; rfl
      have e3 : released (tr ++ [.started]) = released tr := by rw [rel_app]; rfl
      have e4 : reads (tr ++ [.started]) = reads tr := by rw [reads_app]; simp [Spec.CircularBuffer.reads]
      simp only [Phase, hc] at phase wsle first
      refine ⟨a, ws, ⟨?_, last, ?_, ?_, ?_, ?_, ?_, ?_, ?_, ?_, ?_, pair, ?_⟩⟩
      · rw [e2]; exact cur
      · rw [e3]; exact ge
      · rw [e2]; exact le
      · rw [e1, e2]; exact len
      · rw [e2, e3]; exact flag
      · rw [e1]; exact mem
      · rw [e1]; exact fresh
      · simp only [Phase, e1, e3]
        by_cases hb : (cfg.sync && cfg.getFirst) = true
        · have hb' := hb
          rw [Bool.and_eq_true] at hb'
          simp only [hb, if_true]
          exact ⟨by rw [last, phase], hb'.1, hN, ⟨1, by rw [phase, Nat.mul_one], by omega, fun _ => rfl⟩, by omega⟩
        · simp only [Bool.not_eq_true] at hb
          simp only [hb, Bool.false_eq_true, if_false]
          exact ⟨phase, by rw [last, phase], trivial⟩
      · rw [e4, e1]; exact hreads
      · rw [e3]; intro w hw; have := wsle w hw
        split <;> first | omega | exact this
      · rw [e3]
        intro h1 h2
        refine ⟨(first h1 h2).1, ?_⟩
        simp only [h1, h2, Bool.and_self, if_true]
        exact (first h1 h2).2
    | scan k => simp [hc] at hs
    | wait l => simp [hc] at hs
    | copy j acc => simp [hc] at hs
    | clear i => simp [hc] at hs
  | scan =>
    simp only [step] at hs
    cases hc : s.cons with
    | scan k =>
      simp only [Phase, hc] at phase wsle first
      obtain ⟨p1, p2, p3⟩ := phase
      have hfl := nextFlag I hn0 hcn
      rw [hc] at hs
      simp only at hs
      rw [if_pos (show k < cfg.n by omega)] at hs
      by_cases hlt : a < marked tr
      · rw [if_pos (hfl.mpr hlt)] at hs
        simp only [Option.some.injEq, Prod.mk.injEq] at hs
        obtain ⟨rfl, rfl⟩ := hs
        rw [List.append_nil]
        refine ⟨a + 1, ws, ⟨cur, ?_, by omega, by omega, len, flag, mem, fresh, ?_, hreads, wsle, pair, first⟩⟩
        · simp only [last, mod_pred hn0, pred_succ hn0]
        · exact ⟨by omega, p2, p3⟩
      · rw [if_neg (fun h => hlt (hfl.mp h))] at hs
        have ha : a = marked tr := by omega
        simp only [Option.some.injEq, scanEnd] at hs
        by_cases hsy : cfg.sync = true
        · rw [if_pos hsy, if_pos (show k < cfg.n by omega)] at hs
          simp only [Prod.mk.injEq] at hs
          obtain ⟨rfl, rfl⟩ := hs
          have hgf : cfg.getFirst = false := by simpa [hsy] using p3
          have hk : k % cfg.N ≤ k := Nat.mod_le _ _
          have hk2 : k % cfg.N < cfg.N := Nat.mod_lt _ hN
          have hdm := Nat.div_add_mod k cfg.N
          have e1 : produced (tr ++ [.scanned]) = produced tr := by rw [prod_app]; simp [produced]
          have e2 : marked (tr ++ [.scanned]) = marked tr := by rw [mark_app]; rfl
          have e3 : released (tr ++ [.scanned]) = released tr := by rw [rel_app]; rfl
          have e4 : reads (tr ++ [.scanned]) = reads tr := by rw [reads_app]; simp [Spec.CircularBuffer.reads]
          have hr := R1.2 (by simp)
          rw [e2, e3] at hr
          refine ⟨a - k % cfg.N, ws, ⟨?_, ?_, ?_, ?_, ?_, ?_, ?_, ?_, ?_, ?_, ?_, pair, ?_⟩⟩
          · rw [e2]; exact cur
          · simp only [last]; rw [back_eq hn0 hn (by omega) (by omega)]
          · rw [e3]; omega
          · rw [e2]; omega
          · rw [e1, e2]; exact len
          · rw [e2, e3]; exact flag
          · rw [e1]; exact mem
          · rw [e1]; exact fresh
          · simp only [Phase, e3]
            refine ⟨p2, hsy, hN, ⟨k / cfg.N + 1, ?_, Nat.succ_pos _, by simp [hgf]⟩, by omega⟩
            rw [Nat.mul_add, Nat.mul_one]; omega
          · rw [e4, e1]; exact hreads
          · rw [e3]; exact wsle
          · rw [e3]; exact first
        · rw [if_neg hsy] at hs
          simp only [Prod.mk.injEq] at hs
          obtain ⟨rfl, rfl⟩ := hs
          have e1 : produced (tr ++ [.scanned]) = produced tr := by rw [prod_app]; simp [produced]
          have e2 : marked (tr ++ [.scanned]) = marked tr := by rw [mark_app]; rfl
          have e3 : released (tr ++ [.scanned]) = released tr := by rw [rel_app]; rfl
          have e4 : reads (tr ++ [.scanned]) = reads tr := by rw [reads_app]; simp [Spec.CircularBuffer.reads]
          have e5 : newest (tr ++ [.scanned]) 0 0 = marked tr := by rw [newest_append]; simp [newest]
          refine ⟨a, ws, ⟨?_, last, ?_, ?_, ?_, ?_, ?_, ?_, ?_, ?_, ?_, pair, ?_⟩⟩
          · rw [e2]; exact cur
          · rw [e3]; omega
          · rw [e2]; omega
          · rw [e1, e2]; exact len
          · rw [e2, e3]; exact flag
          · rw [e1]; exact mem
          · rw [e1]; exact fresh
          · simp only [Phase, e3]
            exact ⟨p2, by omega, by simp, fun h => absurd h hsy, fun _ => by rw [e5, ha]⟩
          · rw [e4, e1]; exact hreads
          · rw [e3]; exact wsle
          · rw [e3]; exact first
    | idle => simp [hc] at hs
    | wait l => simp [hc] at hs
    | copy j acc => simp [hc] at hs
    | clear i => simp [hc] at hs
  | wait =>
    simp only [step] at hs
    cases hc : s.cons with
    | wait left =>
      simp only [Phase, hc] at phase wsle first
      obtain ⟨p1, p2, p3, ⟨q, p4, p5, p6⟩, p7⟩ := phase
      have hfl := nextFlag I hn0 hcn
      rw [hc] at hs
      simp only at hs
      by_cases hlt : a < marked tr
      · rw [if_pos (hfl.mpr hlt)] at hs
        simp only [Option.some.injEq, Prod.mk.injEq] at hs
        obtain ⟨rfl, rfl⟩ := hs
        rw [List.append_nil]
        refine ⟨a + 1, ws, ⟨cur, ?_, by omega, by omega, len, flag, mem, fresh, ?_, hreads, ?_, pair, ?_⟩⟩
        · simp only [last, mod_pred hn0, pred_succ hn0]
        · by_cases hl : left ≤ 1
          · simp only [Phase, if_pos hl]
            exact ⟨p1, by omega, by simp, fun _ => ⟨q, by omega, p5, p6⟩, fun h => by rw [p2] at h; simp at h⟩
          · simp only [Phase, if_neg hl]
            exact ⟨p1, p2, by omega, ⟨q, by omega, p5, p6⟩, by omega⟩
        · by_cases hl : left ≤ 1
          · simp only [if_pos hl]; exact wsle
          · simp only [if_neg hl]; exact wsle
        · by_cases hl : left ≤ 1
          · simp only [if_pos hl]; exact first
          · simp only [if_neg hl]; exact first
      · rw [if_neg (fun h => hlt (hfl.mp h))] at hs
        simp only [Option.some.injEq, Prod.mk.injEq] at hs
        obtain ⟨rfl, rfl⟩ := hs
        rw [List.append_nil]
        exact ⟨a, ws, I⟩
    | idle => simp [hc] at hs
    | scan k => simp [hc] at hs
    | copy j acc => simp [hc] at hs
    | clear i => simp [hc] at hs
  | copy =>
    simp only [step] at hs
    cases hc : s.cons with
    | copy j acc =>
      simp only [Phase, hc] at phase wsle first
      obtain ⟨p1, p2, p3, p4, p5⟩ := phase
      rw [hc] at hs
      simp only at hs
      by_cases hj : j < cfg.N
      · rw [if_pos hj] at hs
        simp only [Option.some.injEq, Prod.mk.injEq] at hs
        obtain ⟨rfl, rfl⟩ := hs
        rw [List.append_nil]
        refine ⟨a, ws, ⟨cur, last, ge, le, len, flag, mem, fresh, ?_, hreads, wsle, pair, first⟩⟩
        simp only [Phase]
        refine ⟨p1, hj, ?_, p4, p5⟩
        rw [p3, last, offset_eq hn0 hn hN hNn, List.take_add_one]
        congr 1
        rw [window_get hj]
        have hroom : (produced tr).length + cfg.N ≤ a + cfg.n := by
          by_cases hsy : cfg.sync = true
          · obtain ⟨q, q1, q2, _⟩ := p4 hsy
            have : cfg.N * 1 ≤ cfg.N * q := Nat.mul_le_mul_left _ q2
            omega
          · rw [if_neg hsy] at R0; omega
        simp only [Option.toList_some, List.cons.injEq, and_true]
        by_cases hw : a + j < cfg.N
        · rw [if_pos hw, Nat.mod_eq_of_lt (by omega)]
          exact fresh _ (by omega) (by omega)
        · rw [if_neg hw, show a + cfg.n - cfg.N + j = (a + j - cfg.N) + cfg.n by omega, Nat.add_mod_right]
          exact mem _ (by omega) (by omega)
      · rw [if_neg hj] at hs
        simp only [Option.some.injEq, Prod.mk.injEq] at hs
        obtain ⟨rfl, rfl⟩ := hs
        have hacc : acc = window (produced tr) cfg.N a := by
          rw [p3, List.take_of_length_le (by rw [window_len]; omega)]
        have e1 : produced (tr ++ [.read acc]) = produced tr := by rw [prod_app]; simp [produced]
        have e2 : marked (tr ++ [.read acc]) = marked tr := by rw [mark_app]; rfl
        have e3 : released (tr ++ [.read acc]) = released tr := by rw [rel_app]; rfl
        have e4 : reads (tr ++ [.read acc]) = reads tr ++ [acc] := by rw [reads_app]; rfl
        refine ⟨a, ws ++ [a], ⟨?_, last, ?_, ?_, ?_, ?_, ?_, ?_, ?_, ?_, ?_, ?_, ?_⟩⟩
        · rw [e2]; exact cur
        · rw [e3]; exact ge
        · rw [e2]; exact le
        · rw [e1, e2]; exact len
        · rw [e2, e3]; exact flag
        · rw [e1]; exact mem
        · rw [e1]; exact fresh
        · simp only [Phase, e3]; exact p1
        · rw [e4, e1, hreads, hacc]; simp
        · intro w hw
          simp only [List.mem_append, List.mem_singleton] at hw
          rcases hw with h | h
          · exact Nat.le_trans (wsle w h) ge
          · rw [h]; exact Nat.le_refl _
        · rw [List.pairwise_append]
          refine ⟨pair, by simp, ?_⟩
          intro x hx y hy
          rw [List.mem_singleton.mp hy]
          have := wsle x hx
          by_cases hsy : cfg.sync = true
          · obtain ⟨q, q1, q2, _⟩ := p4 hsy
            have : cfg.N * 1 ≤ cfg.N * q := Nat.mul_le_mul_left _ q2
            rw [if_pos hsy]; omega
          · rw [if_neg hsy]; omega
        · intro h1 h2
          obtain ⟨f1, f2⟩ := first h1 h2
          obtain ⟨q, q1, _, q3⟩ := p4 h1
          have hq := q3 h2
          subst hq
          have ha : a = (ws.length + 1) * cfg.N := by rw [Nat.add_mul]; omega
          refine ⟨?_, ?_⟩
          · rw [List.length_append, List.length_singleton, List.range_succ, List.map_append, ← f1, ha]; rfl
          · simp only [List.length_append, List.length_singleton]; exact ha
    | idle => simp [hc] at hs
    | scan k => simp [hc] at hs
    | wait l => simp [hc] at hs
    | clear i => simp [hc] at hs
  | clear =>
    simp only [step] at hs
    cases hc : s.cons with
    | clear idx =>
      simp only [Phase, hc] at phase wsle first
      rw [hc] at hs
      simp only at hs
      have hiff : idx = s.last ↔ released tr = a := by
        rw [phase, last]
        constructor
        · intro h
          have := mod_window h (by omega) (by omega)
          omega
        · intro h; rw [h]
      by_cases hne : idx = s.last
      · rw [if_neg (fun h => h hne)] at hs
        simp only [Option.some.injEq, Prod.mk.injEq] at hs
        obtain ⟨rfl, rfl⟩ := hs
        have hca := hiff.mp hne
        have e1 : produced (tr ++ [.ended]) = produced tr := by rw [prod_app]; simp [produced]
        have e2 : marked (tr ++ [.ended]) = marked tr := by rw [mark_app]; rfl
        have e3 : released (tr ++ [.ended]) = released tr := by rw [rel_app]; rfl
        have e4 : reads (tr ++ [.ended]) = reads tr := by rw [reads_app]; simp [Spec.CircularBuffer.reads]
        refine ⟨a, ws, ⟨?_, last, ?_, ?_, ?_, ?_, ?_, ?_, ?_, ?_, ?_, pair, ?_⟩⟩
        · rw [e2]; exact cur
        · rw [e3]; exact ge
        · rw [e2]; exact le
        · rw [e1, e2]; exact len
        · rw [e2, e3]; exact flag
        · rw [e1]; exact mem
        · rw [e1]; exact fresh
        · simp only [Phase, e3]; exact hca.symm
        · rw [e4, e1]; exact hreads
        · rw [e3, hca]; exact wsle
        · rw [e3, hca]; exact first
      · rw [if_pos hne] at hs
        simp only [Option.some.injEq, Prod.mk.injEq] at hs
        obtain ⟨rfl, rfl⟩ := hs
        have hca : released tr < a := by
          have : ¬ released tr = a := fun h => hne (hiff.mpr h)
          omega
        have e1 : produced (tr ++ [.released]) = produced tr := by rw [prod_app]; simp [produced]
        have e2 : marked (tr ++ [.released]) = marked tr := by rw [mark_app]; rfl
        have e3 : released (tr ++ [.released]) = released tr + 1 := by rw [rel_app]; rfl
        have e4 : reads (tr ++ [.released]) = reads tr := by rw [reads_app]; simp [Spec.CircularBuffer.reads]
        refine ⟨a, ws, ⟨?_, last, ?_, ?_, ?_, ?_, ?_, ?_, ?_, ?_, ?_, pair, ?_⟩⟩
        · rw [e2]; exact cur
        · rw [e3]; omega
        · rw [e2]; exact le
        · rw [e1, e2]; exact len
        · rw [e2, e3]
          intro i hi
          simp only [setAt, phase, mod_pred hn0]
          by_cases h : i = released tr % cfg.n
          · rw [if_pos h]
            simp only [Bool.false_eq_true, false_iff]
            rintro ⟨k, h1, h2, h3⟩
            have := mod_window (h.symm.trans h3.symm) (by omega) (by omega)
            omega
          · rw [if_neg h, flag i hi]
            constructor
            · rintro ⟨k, h1, h2, h3⟩
              have : k ≠ released tr := fun hk => h (by rw [← h3, hk])
              exact ⟨k, by omega, h2, h3⟩
            · rintro ⟨k, h1, h2, h3⟩; exact ⟨k, by omega, h2, h3⟩
        · rw [e1]; exact mem
        · rw [e1]; exact fresh
        · simp only [Phase, e3, phase, mod_pred hn0, pred_succ hn0]
        · rw [e4, e1]; exact hreads
        · exact wsle
        · exact first
    | idle => simp [hc] at hs
    | scan k => simp [hc] at hs
    | wait l => simp [hc] at hs
    | copy j acc => simp [hc] at hs

private theorem run_snoc (cfg : Cfg) (s : St α) (tr : List (Obs α)) (es : List (Ev α)) (e : Ev α) :
    run cfg s tr (es ++ [e]) = (run cfg s tr es).bind fun r => (step cfg r.1 e).map fun q => (q.1, r.2 ++ q.2) := by
  induction es generalizing s tr with
  | nil => simp [run]; cases step cfg s e <;> rfl
  | cons x es ih =>
    simp only [List.cons_append, run]
    cases step cfg s x with
    | none => rfl
    | some r => exact ih _ _

private theorem inv_init (cfg : Cfg) (hn : 0 < cfg.n) : Inv cfg (init cfg : St α) [] 0 [] :=
  { cur := rfl
    last := by simp only [init, Nat.zero_add]; rw [Nat.mod_eq_of_lt (by omega)]
    ge := Nat.zero_le _
    le := Nat.zero_le _
    len := rfl
    flag := by intro i _; simp [init, marked]
    mem := by intro k h; simp [produced] at h
    fresh := by intro i _ _; rfl
    phase := rfl
    reads := rfl
    wsle := by simp
    pair := List.Pairwise.nil
    first := by intro _ _; exact ⟨rfl, by simp [init, released]⟩ }

private theorem inv_from {cfg : Cfg} (hN : 0 < cfg.N) (hNn : cfg.N ≤ cfg.n) (hn : cfg.n < 2 ^ 31) (es : List (Ev α))
    {s0 s : St α} {t0 tr : List (Obs α)} {a : Nat} {ws : List Nat} (I : Inv cfg s0 t0 a ws)
    (h : run cfg s0 t0 es = some (s, tr)) (hR : Roomy cfg tr) : t0 <+: tr ∧ ∃ a ws, Inv cfg s tr a ws := by
  induction es generalizing s0 t0 a ws with
  | nil =>
    simp only [run, Option.some.injEq, Prod.mk.injEq] at h
    obtain ⟨rfl, rfl⟩ := h
    exact ⟨List.prefix_refl _, a, ws, I⟩
  | cons e es ih =>
    simp only [run] at h
    cases hs : step cfg s0 e with
    | none => rw [hs] at h; simp at h
    | some r =>
      rw [hs, Option.bind_some] at h
      have hpre : ∀ (es : List (Ev α)) (s0 : St α) (t0 : List (Obs α)), run cfg s0 t0 es = some (s, tr) → t0 <+: tr := by
        intro es
        induction es with
        | nil => intro s0 t0 h; simp only [run, Option.some.injEq, Prod.mk.injEq] at h; rw [h.2]; exact List.prefix_refl _
        | cons e es ih2 =>
          intro s0 t0 h
          simp only [run] at h
          cases hs : step cfg s0 e with
          | none => rw [hs] at h; simp at h
          | some r =>
            rw [hs, Option.bind_some] at h
            exact (List.prefix_append _ _).trans (ih2 _ _ h)
      have hp := hpre es _ _ h
      obtain ⟨a', ws', I'⟩ := good_step hN hNn hn I e hs (fun t ht => hR t (ht.trans hp))
      obtain ⟨_, h2⟩ := ih I' h
      exact ⟨(List.prefix_append _ _).trans hp, h2⟩

private theorem inv_run {cfg : Cfg} (hN : 0 < cfg.N) (hNn : cfg.N ≤ cfg.n) (hn : cfg.n < 2 ^ 31) {es : List (Ev α)}
    {s : St α} {tr : List (Obs α)} (h : run cfg (init cfg) [] es = some (s, tr)) (hR : Roomy cfg tr) :
    ∃ a ws, Inv cfg s tr a ws :=
  (inv_from hN hNn hn es (inv_init cfg (by omega)) h hR).2

private theorem step_one {cfg : Cfg} {s : St α} {e : Ev α} {r : St α × List (Obs α)} (h : step cfg s e = some r) :
    r.2.length ≤ 1 := by
  have hse : ∀ k, (scanEnd cfg s k).2.length ≤ 1 := by
    intro k; unfold scanEnd; split
    · split <;> simp
    · simp
  cases e <;> simp only [step] at h <;> (repeat' split at h) <;>
    first
    | (simp only [Option.some.injEq] at h; subst h; first | exact hse _ | simp)
    | simp at h

/-- A run whose trace is `t1 ++ o :: t2` passes through the step that observes `o`, with the trace `t1` before it. -/
private theorem find_step {cfg : Cfg} (es : List (Ev α)) {s0 s : St α} {t0 t1 t2 : List (Obs α)} {o : Obs α}
    (h : run cfg s0 t0 es = some (s, t1 ++ o :: t2)) (h0 : t0.length ≤ t1.length) :
    ∃ es1 e es2 s1 s2 us, es = es1 ++ e :: es2 ∧ run cfg s0 t0 es1 = some (s1, t1) ∧
      step cfg s1 e = some (s2, o :: us) := by
  induction es generalizing s0 t0 with
  | nil =>
    simp only [run, Option.some.injEq, Prod.mk.injEq] at h
    have := congrArg List.length h.2
    simp at this; omega
  | cons e es ih =>
    simp only [run] at h
    cases hs : step cfg s0 e with
    | none => rw [hs] at h; simp at h
    | some r =>
      rw [hs, Option.bind_some] at h
      have hpre : ∀ (es : List (Ev α)) (s0 : St α) (t0 : List (Obs α)),
          run cfg s0 t0 es = some (s, t1 ++ o :: t2) → t0 <+: t1 ++ o :: t2 := by
        intro es
        induction es with
        | nil => intro s0 t0 h; simp only [run, Option.some.injEq, Prod.mk.injEq] at h; rw [h.2]; exact List.prefix_refl _
        | cons e es ih2 =>
          intro s0 t0 h
          simp only [run] at h
          cases hs : step cfg s0 e with
          | none => rw [hs] at h; simp at h
          | some r =>
            rw [hs, Option.bind_some] at h
            exact (List.prefix_append _ _).trans (ih2 _ _ h)
      have hp := hpre es _ _ h
      by_cases hl : (t0 ++ r.2).length ≤ t1.length
      · obtain ⟨es1, e', es2, s1, s2, us, a1, a2, a3⟩ := ih h hl
        refine ⟨e :: es1, e', es2, s1, s2, us, by rw [a1]; rfl, ?_, a3⟩
        simp only [run, hs, Option.bind_some, a2]
      · have hone : r.2.length ≤ 1 := step_one hs
        rw [List.length_append] at hl
        have hlen : t0.length = t1.length := by omega
        have ht : t0 = t1 := by
          have h1 := (List.prefix_append t0 r.2).trans hp
          have h2 := List.prefix_append t1 (o :: t2)
          exact (List.prefix_of_prefix_length_le h1 h2 (by omega)).eq_of_length hlen
        subst ht
        obtain ⟨x, hx⟩ := hp
        rw [List.append_assoc, List.append_cancel_left_eq] at hx
        cases hr : r.2 with
        | nil => rw [hr] at hl; simp at hl
        | cons u us =>
          rw [hr] at hx
          simp only [List.cons_append, List.cons.injEq] at hx
          refine ⟨[], e, es, s0, r.1, us, rfl, rfl, ?_⟩
          rw [hs, ← hx.1, ← hr]

/-- **C40, first part.** A read of a signal that does not synchronise gives the `N` samples ending at the newest one announced
when the search for new samples ended, in the order of production.

Partial: for executions where the driver does not run too far ahead (`Roomy`); see `c40_full_ring_frozen` for the
others. -/
theorem c40_reads_newest_partial (cfg : Cfg) (hN : 0 < cfg.N) (hNn : cfg.N ≤ cfg.n) (hn : cfg.n < 2 ^ 31)
    (hsync : cfg.sync = false) (es : List (Ev α)) (s : St α) (t1 t2 : List (Obs α)) (l : List (Option α))
    (h : run cfg (init cfg) [] es = some (s, t1 ++ .read l :: t2)) (hR : Roomy cfg (t1 ++ .read l :: t2)) :
    l = window (produced t1) cfg.N (newest t1 0 0) := by
  obtain ⟨es1, e, es2, s1, s2, us, _, h1, h2⟩ := find_step es h (Nat.zero_le _)
  obtain ⟨a, ws, I⟩ := inv_run hN hNn hn h1 (roomy_pre hR)
  cases e with
  | copy =>
    simp only [step] at h2
    cases hc : s1.cons with
    | copy j acc =>
      rw [hc] at h2
      simp only at h2
      split at h2
      · simp at h2
      · rename_i hj
        have hp := I.phase
        simp only [Phase, hc] at hp
        simp only [Option.some.injEq, Prod.mk.injEq, List.cons.injEq, Obs.read.injEq] at h2
        rw [← h2.2.1, hp.2.2.1, List.take_of_length_le (by rw [window_len]; omega), ← hp.2.2.2.2 hsync]
    | idle => simp [hc] at h2
    | scan k => simp [hc] at h2
    | wait l => simp [hc] at h2
    | clear i => simp [hc] at h2
  | write d => simp only [step] at h2; split at h2 <;> simp at h2
  | check => simp only [step] at h2; split at h2 <;> simp at h2
  | mark => simp only [step] at h2; split at h2 <;> simp at h2
  | start => simp only [step] at h2; split at h2 <;> simp at h2
  | scan =>
    simp only [step, scanEnd] at h2
    repeat' split at h2
    all_goals simp at h2
  | wait =>
    simp only [step] at h2
    repeat' split at h2
    all_goals simp at h2
  | clear =>
    simp only [step] at h2
    repeat' split at h2
    all_goals simp at h2

/-- **C40, second part.** All the reads give windows of consecutive samples in the order of production; the windows never go
back, and for the synchronising signal no sample is given twice.

Partial: as `c40_reads_newest_partial`; see `c40_sync_reads_old_samples` and `c40_sync_whole_ring_fails` for the others. -/
theorem c40_reads_in_order_partial (cfg : Cfg) (hN : 0 < cfg.N) (hNn : cfg.N ≤ cfg.n) (hn : cfg.n < 2 ^ 31)
    (es : List (Ev α)) (s : St α) (tr : List (Obs α)) (h : run cfg (init cfg) [] es = some (s, tr))
    (hR : Roomy cfg tr) :
    ∃ ends : List Nat, reads tr = ends.map (window (produced tr) cfg.N) ∧ (∀ e ∈ ends, e ≤ marked tr) ∧
      ends.Pairwise (fun x y => x + (if cfg.sync then cfg.N else 0) ≤ y) := by
  obtain ⟨a, ws, I⟩ := inv_run hN hNn hn h hR
  refine ⟨ws, I.reads, ?_, I.pair⟩
  intro w hw
  have := I.wsle w hw
  have := I.ge
  have := I.le
  split at * <;> omega

/-- **C40, third part.** With `GetFirst` the reads of the synchronising signal give every sample exactly once: the first `N`, the
following `N`, and so on.  Partial: as above. -/
theorem c40_get_first_consecutive_partial (cfg : Cfg) (hN : 0 < cfg.N) (hNn : cfg.N ≤ cfg.n) (hn : cfg.n < 2 ^ 31)
    (hs : cfg.sync = true) (hg : cfg.getFirst = true) (es : List (Ev α)) (s : St α) (tr : List (Obs α))
    (h : run cfg (init cfg) [] es = some (s, tr)) (hR : Roomy cfg tr) (i : Nat) (hi : i < (reads tr).length) :
    (reads tr)[i] = window (produced tr) cfg.N ((i + 1) * cfg.N) := by
  obtain ⟨a, ws, I⟩ := inv_run hN hNn hn h hR
  have h1 := I.reads
  have h2 := (I.first hs hg).1
  have hl : (reads tr).length = ws.length := by rw [h1, List.length_map]
  have : (reads tr)[i]? = some (window (produced tr) cfg.N ((i + 1) * cfg.N)) := by
    rw [h1, h2, List.getElem?_map, List.getElem?_map, List.getElem?_range (by omega)]; rfl
  rw [List.getElem?_eq_getElem hi] at this
  exact Option.some.inj this

private theorem exists_slot {n c p : Nat} (h0 : 0 < n) : (∃ k, c ≤ k ∧ k < p ∧ k % n = p % n) ↔ c + n ≤ p := by
  constructor
  · rintro ⟨k, h1, h2, h3⟩
    rcases Nat.lt_or_ge p (k + n) with h | h
    · have := mod_window h3 (by omega) h; omega
    · omega
  · intro h
    refine ⟨p - n, by omega, by omega, ?_⟩
    have := Nat.add_mod_right (p - n) n
    rwa [show p - n + n = p by omega, eq_comm] at this

/-- The steps of the driver for the samples `ds`, with nothing else in between. -/
def drive (ds : List α) : List (Ev α) := ds.flatMap fun d => [.write d, .check, .mark]

private theorem drive_flags {cfg : Cfg} (hn : 0 < cfg.n) (ds : List α) {s : St α} {tr : List (Obs α)} {c p : Nat}
    (hd : s.drv = .idle) (hcp : c ≤ p) (hcur : s.cur = p % cfg.n)
    (hf : ∀ i, i < cfg.n → (s.flag i = true ↔ ∃ k, c ≤ k ∧ k < p ∧ k % cfg.n = i)) :
    ∃ s', run cfg s tr (drive ds) = some (s', tr ++ (ds.zipIdx p).flatMap fun x =>
      [.produced x.1, .checked (decide (c + cfg.n ≤ x.2)), .marked]) := by
  induction ds generalizing s tr p with
  | nil => exact ⟨s, by simp [drive, run]⟩
  | cons d ds ih =>
    have hfl : s.flag (p % cfg.n) = decide (c + cfg.n ≤ p) := by
      rw [Bool.eq_iff_iff, hf _ (Nat.mod_lt _ hn), exists_slot hn, decide_eq_true_eq]
    have := ih (s := ⟨setAt s.mem s.cur (some d), setAt s.flag s.cur true, next cfg.n s.cur, s.last, s.last1, .idle, s.cons⟩)
      (tr := tr ++ [.produced d] ++ [.checked (s.flag s.cur)] ++ [.marked]) (p := p + 1) rfl
      (by omega) (by simp only [hcur, next_mod hn]) (by
        intro i hi
        simp only [setAt, hcur]
        by_cases h : i = p % cfg.n
        · rw [if_pos h]; simp only [true_iff]
          exact ⟨p, hcp, by omega, h.symm⟩
        · rw [if_neg h, hf i hi]
          constructor
          · rintro ⟨k, h1, h2, h3⟩; exact ⟨k, h1, by omega, h3⟩
          · rintro ⟨k, h1, h2, h3⟩
            have : k ≠ p := fun hk => h (by rw [← h3, hk])
            exact ⟨k, h1, by omega, h3⟩)
    obtain ⟨s', e⟩ := this
    refine ⟨s', ?_⟩
    simp only [drive, List.flatMap_cons, List.cons_append, List.nil_append, run, step, hd, if_true, Option.bind_some,
      List.zipIdx_cons]
    simp only [drive] at e
    rw [e, hcur, hfl]
    simp

/-- **C40, fourth part.** The driver flags an overrun exactly for the samples that overwrite one not yet released: after
any execution that was never full, when the reader stops and the driver goes on with the samples `ds`, the sample number
`x.2` is flagged if and only if at least `n` samples before it were not released. -/
theorem c40_overrun_flagged (cfg : Cfg) (hN : 0 < cfg.N) (hNn : cfg.N ≤ cfg.n) (hn : cfg.n < 2 ^ 31)
    (es : List (Ev α)) (s : St α) (tr : List (Obs α)) (h : run cfg (init cfg) [] es = some (s, tr))
    (hR : Roomy cfg tr) (hd : s.drv = .idle) (ds : List α) :
    ∃ s', run cfg s tr (drive ds) = some (s', tr ++ (ds.zipIdx (produced tr).length).flatMap fun x =>
      [.produced x.1, .checked (decide (released tr + cfg.n ≤ x.2)), .marked]) := by
  obtain ⟨a, ws, I⟩ := inv_run hN hNn hn h hR
  have hl := I.len
  rw [if_pos hd, Nat.add_zero] at hl
  rw [hl]
  exact drive_flags (by omega) ds hd (Nat.le_trans I.ge I.le) I.cur I.flag

/-- The ring is full: nothing is released and the reader is outside. -/
def Full (cfg : Cfg) (s : St α) : Prop :=
  (∀ i, i < cfg.n → s.flag i = true) ∧ s.cur < cfg.n ∧ s.last < cfg.n ∧ s.cons matches .idle

private def FullInv (cfg : Cfg) (L : Nat) (s : St α) : Prop :=
  (∀ i, i < cfg.n → s.flag i = true) ∧ s.cur < cfg.n ∧
  match s.cons with
  | .idle => s.last = L
  | .scan k => s.last1 = L ∧ k ≤ cfg.n ∧ s.last = (L + k) % cfg.n
  | .wait _ => False
  | .copy _ _ => s.last1 = L ∧ s.last = L
  | .clear idx => idx = L ∧ s.last = L

private theorem next_lt {n i : Nat} (hn : 0 < n) : next n i < n := by unfold next; split <;> omega

private theorem full_step {cfg : Cfg} (hn : 0 < cfg.n) (hs : cfg.sync = false) {L : Nat} (hL : L < cfg.n) {s : St α}
    (F : FullInv cfg L s) (e : Ev α) {r : St α × List (Obs α)} (h : step cfg s e = some r) :
    FullInv cfg L r.1 ∧ Obs.released ∉ r.2 ∧ Obs.checked false ∉ r.2 := by
  obtain ⟨f1, f2, f3⟩ := F
  cases e with
  | write d =>
    simp only [step] at h
    split at h
    · simp only [Option.some.injEq] at h; subst h
      exact ⟨⟨f1, f2, f3⟩, by simp, by simp⟩
    · simp at h
  | check =>
    simp only [step] at h
    split at h
    · simp only [Option.some.injEq] at h; subst h
      exact ⟨⟨f1, f2, f3⟩, by simp, by simp [f1 _ f2]⟩
    · simp at h
  | mark =>
    simp only [step] at h
    split at h
    · simp only [Option.some.injEq] at h; subst h
      refine ⟨⟨?_, next_lt hn, f3⟩, by simp, by simp⟩
      intro i hi
      simp only [setAt]
      split
      · rfl
      · exact f1 i hi
    · simp at h
  | start =>
    simp only [step] at h
    cases hc : s.cons with
    | idle =>
      rw [hc] at h f3
      simp only [hs, Bool.false_and, Bool.false_eq_true, if_false, Option.some.injEq] at h f3
      subst h
      refine ⟨⟨f1, f2, f3, Nat.zero_le _, ?_⟩, by simp, by simp⟩
      simp only [f3, Nat.add_zero, Nat.mod_eq_of_lt hL]
    | scan k => simp [hc] at h
    | wait l => simp [hc] at h
    | copy j acc => simp [hc] at h
    | clear i => simp [hc] at h
  | scan =>
    simp only [step] at h
    cases hc : s.cons with
    | scan k =>
      rw [hc] at h f3
      simp only at h f3
      obtain ⟨g1, g2, g3⟩ := f3
      split at h
      · rename_i hk
        rw [if_pos (f1 _ (next_lt hn))] at h
        simp only [Option.some.injEq] at h; subst h
        refine ⟨⟨f1, f2, g1, hk, ?_⟩, by simp, by simp⟩
        simp only [g3, next_mod hn]; rfl
      · rename_i hk
        have hkn : k = cfg.n := by omega
        simp only [scanEnd, hs, Bool.false_eq_true, if_false, Option.some.injEq] at h; subst h
        refine ⟨⟨f1, f2, g1, ?_⟩, by simp, by simp⟩
        simp only [g3, hkn, Nat.add_mod_right, Nat.mod_eq_of_lt hL]
    | idle => simp [hc] at h
    | wait l => simp [hc] at h
    | copy j acc => simp [hc] at h
    | clear i => simp [hc] at h
  | wait =>
    simp only [step] at h
    cases hc : s.cons with
    | wait l => rw [hc] at f3; exact f3.elim
    | idle => simp [hc] at h
    | scan k => simp [hc] at h
    | copy j acc => simp [hc] at h
    | clear i => simp [hc] at h
  | copy =>
    simp only [step] at h
    cases hc : s.cons with
    | copy j acc =>
      rw [hc] at h f3
      simp only at h f3
      split at h
      · simp only [Option.some.injEq] at h; subst h
        exact ⟨⟨f1, f2, f3⟩, by simp, by simp⟩
      · simp only [Option.some.injEq] at h; subst h
        exact ⟨⟨f1, f2, f3⟩, by simp, by simp⟩
    | idle => simp [hc] at h
    | scan k => simp [hc] at h
    | wait l => simp [hc] at h
    | clear i => simp [hc] at h
  | clear =>
    simp only [step] at h
    cases hc : s.cons with
    | clear idx =>
      rw [hc] at h f3
      simp only at h f3
      rw [if_neg (by rw [f3.1, f3.2]; simp)] at h
      simp only [Option.some.injEq] at h; subst h
      exact ⟨⟨f1, f2, f3.2⟩, by simp, by simp⟩
    | idle => simp [hc] at h
    | scan k => simp [hc] at h
    | wait l => simp [hc] at h
    | copy j acc => simp [hc] at h

private theorem full_run {cfg : Cfg} (hn : 0 < cfg.n) (hs : cfg.sync = false) {L : Nat} (hL : L < cfg.n)
    (es : List (Ev α)) {s s' : St α} {tr tr' : List (Obs α)} (F : FullInv cfg L s) (h : run cfg s tr es = some (s', tr')) :
    FullInv cfg L s' ∧ ∃ us, tr' = tr ++ us ∧ Obs.released ∉ us ∧ Obs.checked false ∉ us := by
  induction es generalizing s tr with
  | nil =>
    simp only [run, Option.some.injEq, Prod.mk.injEq] at h
    obtain ⟨rfl, rfl⟩ := h
    exact ⟨F, [], by simp, by simp, by simp⟩
  | cons e es ih =>
    simp only [run] at h
    cases hst : step cfg s e with
    | none => rw [hst] at h; simp at h
    | some r =>
      rw [hst, Option.bind_some] at h
      obtain ⟨F1, a1, a2⟩ := full_step hn hs hL F e hst
      obtain ⟨F2, us, b1, b2, b3⟩ := ih F1 h
      exact ⟨F2, r.2 ++ us, by rw [b1, List.append_assoc], by simp [a1, b2], by simp [a2, b3]⟩

/-- **C40, disagreement.** Once all the buffers hold samples not yet released, a signal that does not synchronise is frozen
for ever: whatever both threads do, no buffer is ever released again, every new sample is flagged as an overrun, and after each
read the position read is the same as before. -/
theorem c40_full_ring_frozen (cfg : Cfg) (hn : 0 < cfg.n) (hs : cfg.sync = false) (s : St α) (hF : Full cfg s)
    (es : List (Ev α)) (s' : St α) (tr' : List (Obs α)) (h : run cfg s [] es = some (s', tr')) :
    Obs.released ∉ tr' ∧ Obs.checked false ∉ tr' ∧ (s'.cons matches .idle → s'.last = s.last) := by
  obtain ⟨f1, f2, f3, f4⟩ := hF
  have F : FullInv cfg s.last s := by
    refine ⟨f1, f2, ?_⟩
    cases hc : s.cons <;> simp_all
  obtain ⟨F', us, b1, b2, b3⟩ := full_run hn hs f3 es F h
  rw [List.nil_append] at b1
  subst b1
  refine ⟨b2, b3, ?_⟩
  intro hi
  have := F'.2.2
  cases hc : s'.cons <;> simp_all

/-- The full state of `c40_full_ring_frozen` is reached when the driver makes `n` samples before the first read; then the second
read gives the second sample again although a third one has been announced. -/
theorem c40_full_ring_reads_old_sample :
    let cfg : Cfg := ⟨2, 1, false, false⟩
    let read : List (Ev Nat) := [.start, .scan, .scan, .scan, .copy, .copy, .clear]
    (run cfg (init cfg) [] (drive [1, 2] ++ read ++ drive [3] ++ read)).map (fun r => (reads r.2, produced r.2)) =
      some ([[some 2], [some 2]], [1, 2, 3]) := by decide +kernel

/-- **C40, disagreement.** The synchronising signal with 3 buffers, reading 2 samples: when 2 samples wait, it waits for the
third one and gives it together with the first one, out of order. -/
theorem c40_sync_reads_old_samples :
    let cfg : Cfg := ⟨3, 2, true, false⟩
    (run cfg (init cfg) [] (drive [1, 2] ++ [.start, .scan, .scan, .scan] ++ drive [3] ++
      [.wait, .wait, .copy, .copy, .copy])).map (fun r => reads r.2) = some [[some 3, some 1]] := by decide +kernel

/-- **C40, disagreement.** The synchronising signal reading as many samples as there are buffers: after the first read nothing
is released, and the next `Synchronise` fails. -/
theorem c40_sync_whole_ring_fails :
    let cfg : Cfg := ⟨2, 2, true, false⟩
    (run cfg (init cfg) [] ([.start, .scan] ++ drive [1, 2] ++ [.wait, .wait, .copy, .copy, .copy, .clear, .start,
      .scan, .scan, .scan])).map (fun r => r.2.drop 8) =
      some [.read [some 1, some 2], .ended, .started, .failed] := by decide +kernel

private def Roomy' (cfg : Cfg) (tr : List (Obs Nat)) : Bool :=
  (List.range (tr.length + 1)).all fun k =>
    decide ((produced (tr.take k)).length + (if cfg.sync then 1 else cfg.N) ≤ released (tr.take k) + cfg.n) &&
    (decide ((tr.take k).getLast? ≠ some .scanned) || decide (marked (tr.take k) + cfg.N ≤ released (tr.take k) + cfg.n))

private theorem roomy_of {cfg : Cfg} {tr : List (Obs Nat)} (h : Roomy' cfg tr = true) : Roomy cfg tr := by
  intro t ht
  simp only [Roomy', List.all_eq_true, List.mem_range, Bool.and_eq_true, Bool.or_eq_true, decide_eq_true_eq] at h
  have := h t.length (by have := ht.length_le; omega)
  rw [← List.prefix_iff_eq_take.mp ht] at this
  exact ⟨this.1, fun hl => this.2.resolve_left (fun hn => hn hl)⟩

/-- The hypotheses of the theorems above are met by executions that go round the ring, in each of the three modes. -/
example :
    (∃ s tr, run ⟨3, 2, false, false⟩ (init ⟨3, 2, false, false⟩) [] (drive [1] ++ [.start, .scan, .scan, .copy, .copy, .copy,
        .clear, .clear] ++ drive [2] ++ [.start, .scan, .scan, .copy, .copy, .copy, .clear, .clear]) = some (s, tr) ∧
      Roomy ⟨3, 2, false, false⟩ tr ∧ reads tr = [[none, some 1], [some 1, some 2]]) ∧
    (∃ s tr, run ⟨3, 1, true, false⟩ (init ⟨3, 1, true, false⟩) [] (drive [1] ++ [.start, .scan, .scan] ++ drive [2] ++
        [.wait, .copy, .copy, .clear, .clear, .clear]) = some (s, tr) ∧
      Roomy ⟨3, 1, true, false⟩ tr ∧ reads tr = [[some 2]]) ∧
    (∃ s tr, run ⟨3, 1, true, true⟩ (init ⟨3, 1, true, true⟩) [] (drive [1, 2] ++ [.start, .wait, .copy, .copy, .clear,
        .clear] ++ drive [3] ++ [.start, .wait, .copy, .copy]) = some (s, tr) ∧
      Roomy ⟨3, 1, true, true⟩ tr ∧ reads tr = [[some 1], [some 2]]) := by
  refine ⟨⟨_, _, rfl, roomy_of (by decide +kernel), by decide +kernel⟩,
    ⟨_, _, rfl, roomy_of (by decide +kernel), by decide +kernel⟩,
    ⟨_, _, rfl, roomy_of (by decide +kernel), by decide +kernel⟩⟩

end Verif.CircularBuffer
