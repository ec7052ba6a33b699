import Verif.Model.TriggerBroker

/-!
# C33: MemoryMapAsyncTriggerOutputBroker

The specification looks at the trace: the samples written by `Execute`, those delivered to the data source.
-/

namespace Verif.Spec.TriggerBroker

open Verif.TriggerBroker (Obs)

variable {α : Type}

def written : List (Obs α) → List α
  | [] => []
  | .written d :: t => d :: written t
  | _ :: t => written t

def delivered : List (Obs α) → List (Option α)
  | [] => []
  | .delivered d :: t => d :: delivered t
  | _ :: t => delivered t

/-- Buffers left behind by the consuming thread. -/
def passed : List (Obs α) → Nat
  | [] => 0
  | .passed :: t => passed t + 1
  | _ :: t => passed t

/-- Sample `k` is to be stored: some sample `j` is triggered, with `k` at most `pre` places before it or `post` after it. -/
def stored (pre post : Nat) (trig : α → Bool) (ws : List α) (k : Nat) : Bool :=
  (List.range ws.length).any fun j => (ws[j]?).any trig && decide (j ≤ k + pre) && decide (k ≤ j + post)

/-- The samples to be stored among the first `m`, in order. -/
def expected (pre post : Nat) (trig : α → Bool) (ws : List α) (m : Nat) : List (Option α) :=
  ((List.range m).filter (stored pre post trig ws)).map fun k => ws[k]?

/-- Whenever `Execute` is called, the consuming thread is not too late: at most `n - pre - 1` (`n - 2` without pre-trigger) buffers to look at. -/
def Roomy (n pre : Nat) (t : List (Obs α)) : Prop :=
  ∀ p d post, t = p ++ .called d :: post → (written p).length + max pre 1 + 1 ≤ n + passed p

end Verif.Spec.TriggerBroker

namespace Verif.Props

open Verif.TriggerBroker
open Verif.Spec.TriggerBroker (written delivered passed stored expected Roomy)

variable {α : Type}

private theorem t_written_append (a b : List (Obs α)) : written (a ++ b) = written a ++ written b := by
  induction a with
  | nil => rfl
  | cons x a ih => cases x <;> simp [written, ih]

private theorem t_delivered_append (a b : List (Obs α)) : delivered (a ++ b) = delivered a ++ delivered b := by
  induction a with
  | nil => rfl
  | cons x a ih => cases x <;> simp [delivered, ih]

private theorem t_passed_append (a b : List (Obs α)) : passed (a ++ b) = passed a + passed b := by
  induction a with
  | nil => simp [passed]
  | cons x a ih => cases x <;> simp [passed, ih]; omega

private inductive Reach (c : Cfg α) (s0 : St α) : St α → List (Obs α) → Prop where
  | start : Reach c s0 s0 []
  | step {s t e s' o} : Reach c s0 s t → step c s e = some (s', o) → Reach c s0 s' (t ++ o)

private theorem reach_run_aux (c : Cfg α) (s0 : St α) (es : List (Ev α)) : ∀ (s : St α) (t : List (Obs α)) (s' : St α) (o : List (Obs α)),
    Reach c s0 s t → run c s es = some (s', o) → Reach c s0 s' (t ++ o) := by
  induction es with
  | nil => intro s t s' o hr h; simp [run] at h; obtain ⟨rfl, rfl⟩ := h; simpa using hr
  | cons e es ih =>
    intro s t s' o hr h
    rw [run] at h
    cases hs : step c s e with
    | none => simp [hs] at h
    | some p =>
      obtain ⟨s1, o1⟩ := p
      simp only [hs, Option.bind_some] at h
      cases hrun : run c s1 es with
      | none => simp [hrun] at h
      | some q =>
        obtain ⟨s2, o2⟩ := q
        simp [hrun] at h
        obtain ⟨rfl, rfl⟩ := h
        rw [← List.append_assoc]
        exact ih s1 (t ++ o1) s2 o2 (.step hr hs) hrun

private theorem reach_run {c : Cfg α} {s0 : St α} {es : List (Ev α)} {s' : St α} {o : List (Obs α)} (h : run c s0 es = some (s', o)) :
    Reach c s0 s' o := by
  simpa using reach_run_aux c s0 es s0 [] s' o .start h

private theorem roomy_prefix {n p : Nat} {t u : List (Obs α)} (h : Roomy n p (t ++ u)) : Roomy n p t := by
  intro pre d post e
  exact h pre d (post ++ u) (by rw [e]; simp)

/-! ### Positions -/

private theorem mod_ne {n a b : Nat} (h : a < b) (h' : b < a + n) : a % n ≠ b % n := by
  intro e
  have hn : 0 < n := by omega
  have h1 := Nat.div_add_mod a n
  have h2 := Nat.div_add_mod b n
  have hab : a / n < b / n ∨ b / n ≤ a / n := by omega
  rcases hab with hab | hab
  · have : n * (a / n + 1) ≤ n * (b / n) := Nat.mul_le_mul_left n hab
    rw [Nat.mul_add] at this
    omega
  · have : n * (b / n) ≤ n * (a / n) := Nat.mul_le_mul_left n hab
    omega

/-- The buffer of position `K`; position `k + p` is that of sample `k`. -/
private def phys (n p K : Nat) : Nat := (K + (n - p)) % n

private theorem phys_ne {n p a b : Nat} (h : a < b) (h' : b < a + n) : phys n p a ≠ phys n p b :=
  mod_ne (by omega) (by omega)

private theorem phys_inj {n p a b D : Nat} (ha : D ≤ a) (hb : D ≤ b) (ha' : a < D + n) (hb' : b < D + n) : phys n p a = phys n p b ↔ a = b := by
  constructor
  · intro h
    rcases Nat.lt_trichotomy a b with hl | hl | hl
    · exact absurd h (phys_ne hl (by omega))
    · exact hl
    · exact absurd h.symm (phys_ne hl (by omega))
  · rintro rfl; rfl

private theorem phys_add_n {n p K : Nat} : phys n p (n + K) = phys n p K := by
  unfold phys
  rw [show n + K + (n - p) = n + (K + (n - p)) by omega, Nat.add_mod_left]

private theorem phys_sample {n p k : Nat} (hp : p ≤ n) : phys n p (k + p) = k % n := by
  unfold phys
  rw [show k + p + (n - p) = n + k by omega, Nat.add_mod_left]

private theorem incr_mod {n k : Nat} (hn : 0 < n) : incr n (k % n) = (k + 1) % n := by
  unfold incr
  have hlt := Nat.mod_lt k hn
  split
  · rename_i h
    rw [Nat.add_mod]
    by_cases h1 : n = 1
    · subst h1; omega
    · rw [Nat.mod_eq_of_lt (show 1 < n by omega), h, Nat.mod_self]
  · rename_i h
    rw [Nat.add_mod, Nat.mod_eq_of_lt (show 1 < n by omega), Nat.mod_eq_of_lt (show k % n + 1 < n by omega)]

private theorem incr_phys {n p K : Nat} (hn : 0 < n) : incr n (phys n p K) = phys n p (K + 1) := by
  unfold phys
  rw [incr_mod hn]; congr 1; omega

private theorem before_mod {n W j : Nat} (hj : j + 1 ≤ n) (hW : j + 1 ≤ W) : before n (W % n) j = (W - (j + 1)) % n := by
  unfold before
  have hlt := Nat.mod_lt W (show 0 < n by omega)
  have h1 := Nat.div_add_mod W n
  split
  · rename_i h
    have hq : 0 < W / n := by
      apply Nat.pos_of_ne_zero
      intro h0
      rw [h0] at h1; omega
    obtain ⟨q, hq'⟩ : ∃ q, W / n = q + 1 := ⟨W / n - 1, by omega⟩
    rw [hq', Nat.mul_add] at h1
    have : W - (j + 1) = n * q + (n + W % n - (j + 1)) := by omega
    rw [this, Nat.mul_add_mod, Nat.mod_eq_of_lt (show n + W % n - (j + 1) < n by omega)]
  · have : W - (j + 1) = n * (W / n) + (W % n - (j + 1)) := by omega
    rw [this, Nat.mul_add_mod, Nat.mod_eq_of_lt (show W % n - (j + 1) < n by omega)]

private theorem stopIdx_phys (c : Cfg α) (hp : c.pre < c.n) (W : Nat) : stopIdx c (W % c.n) = phys c.n c.pre W := by
  unfold stopIdx phys
  have hlt := Nat.mod_lt W (show 0 < c.n by omega)
  have h1 := Nat.div_add_mod W c.n
  have key : (W + (c.n - c.pre)) % c.n = (W % c.n + (c.n - c.pre)) % c.n := by
    rw [Nat.mod_add_mod]
  rw [key]
  by_cases h : W % c.n < c.pre
  · simp only [h, if_true]
    rw [if_neg (by omega), Nat.mod_eq_of_lt (show W % c.n + (c.n - c.pre) < c.n by omega)]; omega
  · simp only [h, if_false]
    rw [if_neg (by omega), show W % c.n + (c.n - c.pre) = c.n + (W % c.n - c.pre) by omega, Nat.add_mod_left, Nat.mod_eq_of_lt (show W % c.n - c.pre < c.n by omega)]

private theorem markPre_eq (n w wr : Nat) : ∀ (k j : Nat) (flag : Nat → Bool) (i : Nat),
    (markPre n w wr k j flag) i = true ↔ flag i = true ∨ ∃ j', j ≤ j' ∧ j' < j + k ∧ j' < wr ∧ i = before n w j' := by
  intro k
  induction k with
  | zero => intro j flag i; simp [markPre]; intro x h1 h2; omega
  | succ k ih =>
    intro j flag i
    rw [markPre, ih]
    constructor
    · rintro (h | ⟨j', h1, h2, h3, h4⟩)
      · split at h
        · rename_i hj
          simp only [upd] at h
          split at h
          · rename_i hi; exact Or.inr ⟨j, Nat.le_refl _, by omega, hj, hi⟩
          · exact Or.inl h
        · exact Or.inl h
      · exact Or.inr ⟨j', by omega, by omega, h3, h4⟩
    · rintro (h | ⟨j', h1, h2, h3, h4⟩)
      · left
        split
        · simp only [upd]; split
          · rfl
          · exact h
        · exact h
      · by_cases hj : j' = j
        · subst hj
          left
          rw [if_pos h3, h4]; simp [upd]
        · exact Or.inr ⟨j', by omega, by omega, h3, h4⟩

private theorem stored_iff (pre post : Nat) (trig : α → Bool) (ws : List α) (k : Nat) :
    stored pre post trig ws k = true ↔ ∃ j d, ws[j]? = some d ∧ trig d = true ∧ j ≤ k + pre ∧ k ≤ j + post := by
  unfold stored
  rw [List.any_eq_true]
  constructor
  · rintro ⟨j, hj, h⟩
    cases hd : ws[j]? with
    | none => simp [hd] at h
    | some d =>
      simp [hd] at h
      exact ⟨j, d, hd, h.1.1, h.1.2, h.2⟩
  · rintro ⟨j, d, h1, h2, h3, h4⟩
    refine ⟨j, by simp; exact (List.getElem?_eq_some_iff.mp h1).1, ?_⟩
    simp [h1, h2, h3, h4]

private theorem stored_snoc (pre post : Nat) (trig : α → Bool) (ws : List α) (x : α) (k : Nat) :
    stored pre post trig (ws ++ [x]) k = true ↔
      stored pre post trig ws k = true ∨ (trig x = true ∧ ws.length ≤ k + pre ∧ k ≤ ws.length + post) := by
  rw [stored_iff, stored_iff]
  constructor
  · rintro ⟨j, d, h1, h2, h3, h4⟩
    rw [List.getElem?_append] at h1
    split at h1
    · exact Or.inl ⟨j, d, h1, h2, h3, h4⟩
    · rename_i hj
      have : j = ws.length := by
        have := (List.getElem?_eq_some_iff.mp h1).1
        simp at this; omega
      subst this
      simp at h1
      subst h1
      exact Or.inr ⟨h2, h3, h4⟩
  · rintro (⟨j, d, h1, h2, h3, h4⟩ | ⟨h1, h2, h3⟩)
    · exact ⟨j, d, by rw [List.getElem?_append_left (List.getElem?_eq_some_iff.mp h1).1]; exact h1, h2, h3, h4⟩
    · exact ⟨ws.length, x, by simp, h1, h2, h3⟩

private theorem expected_snoc (pre post : Nat) (trig : α → Bool) (ws : List α) (x : α) (m : Nat) (hm : m + pre ≤ ws.length ∨ m = 0) :
    expected pre post trig (ws ++ [x]) m = expected pre post trig ws m := by
  rcases hm with hm | rfl
  · unfold expected
    have hf : (List.range m).filter (stored pre post trig (ws ++ [x])) = (List.range m).filter (stored pre post trig ws) := by
      apply List.filter_congr
      intro k hk
      simp at hk
      rw [Bool.eq_iff_iff, stored_snoc]
      constructor
      · rintro (h | ⟨_, h, _⟩)
        · exact h
        · omega
      · exact Or.inl
    rw [hf]
    apply List.map_congr_left
    intro k hk
    have := (List.mem_filter.mp hk).1
    simp at this
    rw [List.getElem?_append_left (by omega)]
  · rfl

private theorem expected_succ (pre post : Nat) (trig : α → Bool) (ws : List α) (m : Nat) :
    expected pre post trig ws (m + 1) = expected pre post trig ws m ++ (if stored pre post trig ws m then [ws[m]?] else []) := by
  unfold expected
  rw [List.range_succ, List.filter_append, List.map_append]
  congr 1
  cases h : stored pre post trig ws m <;> simp [h]

/-! ### Invariant -/

private def lag : Cons → Nat
  | .clearing _ => 1
  | .advance _ => 1
  | _ => 0

private def open? : Prod α → Nat
  | .closing _ => 1
  | _ => 0

private structure Inv (c : Cfg α) (s : St α) (ws : List α) (A : Nat) : Prop where
  le : A + lag s.cons ≤ ws.length - open? s.prod
  open_le : open? s.prod ≤ ws.length
  room : ws.length + max c.pre 1 ≤ c.n + A
  noOver : s.prod ≠ .marking none ∧ s.prod ≠ .closing false
  busy : (∃ d, s.prod = .copying d) ∨ (∃ d, s.prod = .marking (some d)) → ws.length + max c.pre 1 + 1 ≤ c.n + A
  w : s.w = (ws.length - open? s.prod) % c.n
  r : s.r = phys c.n c.pre A
  mem : ∀ K, A + lag s.cons ≤ K → c.pre ≤ K → K < ws.length + c.pre → s.mem (phys c.n c.pre K) = ws[K - c.pre]?
  memW : ∀ d, s.prod = .marking (some d) → s.mem s.w = some d
  flagS : ∀ K, A + lag s.cons ≤ K → K < ws.length + c.pre →
    (s.flag (phys c.n c.pre K) = true ↔ c.pre ≤ K ∧ stored c.pre c.post c.trig ws (K - c.pre) = true)
  flagE : ∀ K, ws.length + c.pre ≤ K → K < c.n + A → s.flag (phys c.n c.pre K) = false
  adv : ∀ st, s.cons = .advance st → s.flag (phys c.n c.pre A) = false
  cop : ∀ st, s.cons = .copying st → s.flag (phys c.n c.pre A) = true
  stop : ∀ st, s.cons = .scan st ∨ s.cons = .copying st ∨ s.cons = .clearing st ∨ s.cons = .advance st →
    ∃ S, st = phys c.n c.pre S ∧ A + lag s.cons ≤ S ∧ S ≤ ws.length - open? s.prod ∧ (s.cons = .copying st → A < S) ∧
      (S ≠ ws.length - open? s.prod → s.sem = true)
  wake : s.cons = .finish ∨ s.cons = .waiting → A ≠ ws.length - open? s.prod → s.sem = true
  was : s.wasTrig = true → ∃ d, ws[ws.length - 1]? = some d ∧ c.trig d = true
  postI : ∀ x, x < s.postCount ↔ ∃ j d, ws[j]? = some d ∧ c.trig d = true ∧ ws.length + x ≤ j + c.post
  preW : s.preWritten = min ws.length c.pre

private theorem upd_self {β : Type} (f : Nat → β) (i : Nat) (v : β) : upd f i v i = v := by simp [upd]

private theorem upd_ne {β : Type} (f : Nat → β) {i j : Nat} (v : β) (h : j ≠ i) : upd f i v j = f j := by simp [upd, h]

private theorem started_inv (c : Cfg α) (hp : c.pre < c.n) (hn : 2 ≤ c.n) : Inv c (started c) [] 0 := by
  constructor <;> simp [started, lag, open?, phys, stored]
  all_goals omega

private theorem inv_exec {c : Cfg α} (hp : c.pre < c.n) {s : St α} {ws : List α} {A : Nat} {d : α} (hi : Inv c s ws A)
    (hr : ws.length + max c.pre 1 + 1 ≤ c.n + A)
    {s' : St α} {o : List (Obs α)} (h : step c s (.exec d) = some (s', o)) : o = [.called d] ∧ Inv c s' ws A := by
  obtain ⟨mem, flag, w, r, sem, posted, was, pc, pw, prod, cons⟩ := s
  cases prod with
  | idle =>
    have hf : flag w = false := by
      have := hi.flagE (ws.length + c.pre) (Nat.le_refl _) (by omega)
      rw [phys_sample (by omega)] at this
      have hw := hi.w
      simp [open?] at hw
      rw [hw]; exact this
    simp [step, hf] at h
    obtain ⟨rfl, rfl⟩ := h
    exact ⟨rfl, hi.le, by simp [open?], hi.room, by simp, fun _ => hr, hi.w, hi.r, hi.mem, by simp, hi.flagS, hi.flagE, hi.adv, hi.cop, hi.stop,
      hi.wake, hi.was, hi.postI, hi.preW⟩
  | copying d => simp [step] at h
  | marking d => simp [step] at h
  | closing b => simp [step] at h

/-- The flags after the marking, away from the buffer just written. -/
private theorem mark_flag {c : Cfg α} {s : St α} {d : α} (hm : s.mem s.w = some d) (i : Nat) :
    ((mark c s).flag i = true ↔
      (if i = s.w then (c.trig d = true ∨ 0 < s.postCount ∨ (s.wasTrig = false ∧ c.trig d = true)) else
        (s.flag i = true ∨ (c.trig d = true ∧ s.wasTrig = false ∧ ∃ j', j' < c.pre ∧ j' < s.preWritten ∧ i = before c.n s.w j')))) := by
  unfold mark
  simp only [hm, trigOf]
  cases ht : c.trig d with
  | true =>
    simp only [if_true]
    cases hw : s.wasTrig with
    | true =>
      simp only [if_true, upd]
      split <;> simp
    | false =>
      simp only [Bool.false_eq_true, if_false]
      rw [markPre_eq]
      simp only [upd, Nat.zero_le, true_and, Nat.zero_add]
      split <;> simp
  | false =>
    simp only [Bool.false_eq_true, if_false, upd]
    split
    · rename_i hpc
      by_cases hiw : i = s.w
      · simp [hiw, hpc, upd]
      · simp [hiw, upd]
    · rename_i hpc
      by_cases hiw : i = s.w
      · simp [hiw, upd]; omega
      · simp [hiw, upd]

private theorem mark_frame (c : Cfg α) (s : St α) : (mark c s).mem = s.mem ∧ (mark c s).w = s.w ∧ (mark c s).r = s.r ∧ (mark c s).sem = s.sem ∧
    (mark c s).cons = s.cons := by
  unfold mark
  simp only
  split <;> simp

private theorem inv_mark {c : Cfg α} (hp : c.pre < c.n) {s : St α} {ws : List α} {A : Nat} {d : α} (hi : Inv c s ws A)
    (hpd : s.prod = .marking (some d)) : Inv c { mark c s with prod := .closing true } (ws ++ [d]) A := by
  obtain ⟨f1, f2, f3, f4, f5⟩ := mark_frame c s
  have hle := hi.le
  have hm := hi.memW d hpd
  have hb := hi.busy (Or.inr ⟨d, hpd⟩)
  have hw := hi.w
  have hstop := hi.stop
  have hwake := hi.wake
  have hlen : (ws ++ [d]).length = ws.length + 1 := by simp
  have hmax : c.pre ≤ max c.pre 1 ∧ 1 ≤ max c.pre 1 := by omega
  simp only [hpd, open?, Nat.sub_zero] at hle hw hstop hwake
  have hwp : s.w = phys c.n c.pre (ws.length + c.pre) := by rw [phys_sample (by omega)]; exact hw
  have hbef : ∀ j', j' < c.pre → j' < ws.length → before c.n s.w j' = phys c.n c.pre (ws.length + c.pre - (j' + 1)) := by
    intro j' h1 h2
    rw [hw, before_mod (by omega) (by omega), show ws.length + c.pre - (j' + 1) = (ws.length - (j' + 1)) + c.pre by omega, phys_sample (by omega)]
  -- flags of the positions from A on
  have hflag : ∀ K, A ≤ K → K < ws.length + c.pre → ((mark c s).flag (phys c.n c.pre K) = true ↔
      s.flag (phys c.n c.pre K) = true ∨ (c.trig d = true ∧ s.wasTrig = false ∧ ws.length ≤ K ∧ c.pre ≤ K)) := by
    intro K h1 h2
    rw [mark_flag hm, if_neg (by rw [hwp]; exact phys_ne h2 (by omega))]
    refine or_congr Iff.rfl (and_congr Iff.rfl (and_congr Iff.rfl ?_))
    constructor
    · rintro ⟨j', h3, h4, h5⟩
      rw [hi.preW] at h4
      rw [hbef j' h3 (by omega)] at h5
      have := (phys_inj (D := A) h1 (by omega) (by omega) (by omega)).mp h5
      omega
    · rintro ⟨h3, h4⟩
      refine ⟨ws.length + c.pre - K - 1, by omega, by rw [hi.preW]; omega, ?_⟩
      rw [hbef _ (by omega) (by omega)]
      congr 1; omega
  have hlow : ∀ K, A ≤ K → K < ws.length → ((mark c s).flag (phys c.n c.pre K) = true ↔ s.flag (phys c.n c.pre K) = true) := by
    intro K h1 h2
    rw [hflag K h1 (by omega)]
    constructor
    · rintro (h | ⟨_, _, h, _⟩)
      · exact h
      · omega
    · exact Or.inl
  refine ⟨?_, by simp [open?], ?_, by simp, by simp, ?_, by simpa [f3] using hi.r, ?_, by simp, ?_, ?_, ?_, ?_, ?_, ?_, ?_, ?_, ?_⟩
  · simp only [f5, open?, hlen]; omega
  · rw [hlen]; omega
  · simp only [f2, open?, hlen]; exact hw
  · intro K h1 h2 h3
    simp only [f5, hlen] at h1 h3
    simp only [f1]
    by_cases hK : K < ws.length + c.pre
    · rw [hi.mem K h1 h2 hK, List.getElem?_append_left (by omega)]
    · have : K = ws.length + c.pre := by omega
      subst this
      rw [← hwp, hm]; simp
  · intro K h1 h2
    simp only [f5, hlen] at h1 h2
    simp only
    rw [stored_snoc]
    by_cases hK : K < ws.length + c.pre
    · rw [hflag K (by omega) hK, hi.flagS K h1 hK]
      constructor
      · rintro (⟨h3, h4⟩ | ⟨h3, h4, h5, h6⟩)
        · exact ⟨h3, Or.inl h4⟩
        · exact ⟨h6, Or.inr ⟨h3, by omega, by omega⟩⟩
      · rintro ⟨h3, h4 | ⟨h4, h5, h6⟩⟩
        · exact Or.inl ⟨h3, h4⟩
        · cases hwas : s.wasTrig with
          | false => exact Or.inr ⟨h4, rfl, by omega, h3⟩
          | true =>
            left
            refine ⟨h3, ?_⟩
            obtain ⟨d', hd', ht'⟩ := hi.was hwas
            rw [stored_iff]
            have := (List.getElem?_eq_some_iff.mp hd').1
            exact ⟨ws.length - 1, d', hd', ht', by omega, by omega⟩
    · have : K = ws.length + c.pre := by omega
      subst this
      rw [← hwp, mark_flag hm, if_pos rfl, show ws.length + c.pre - c.pre = ws.length by omega, stored_iff, hi.postI 0]
      constructor
      · rintro (h | ⟨j, d', h3, h4, h5⟩ | h)
        · exact ⟨by omega, Or.inr ⟨h, by omega, by omega⟩⟩
        · have := (List.getElem?_eq_some_iff.mp h3).1
          exact ⟨by omega, Or.inl ⟨j, d', h3, h4, by omega, by omega⟩⟩
        · exact ⟨by omega, Or.inr ⟨h.2, by omega, by omega⟩⟩
      · rintro ⟨_, ⟨j, d', h3, h4, h5, h6⟩ | ⟨h, _, _⟩⟩
        · exact Or.inr (Or.inl ⟨j, d', h3, h4, by omega⟩)
        · exact Or.inl h
  · intro K h1 h2
    simp only [hlen] at h1
    simp only
    have hold := hi.flagE K (by omega) h2
    rw [← Bool.not_eq_true, mark_flag hm, if_neg (by rw [hwp]; exact (phys_ne (by omega) (by omega)).symm)]
    rintro (h | ⟨_, _, j', h3, h4, h5⟩)
    · rw [hold] at h; simp at h
    · rw [hi.preW] at h4
      rw [hbef j' h3 (by omega)] at h5
      exact phys_ne (n := c.n) (p := c.pre) (a := ws.length + c.pre - (j' + 1)) (b := K) (by omega) (by omega) h5.symm
  · intro st hst
    simp only [f5] at hst
    simp only [hst, lag] at hle
    have := hi.adv st hst
    simp only
    rw [← Bool.not_eq_true, hlow A (Nat.le_refl _) (by omega), this]; simp
  · intro st hst
    simp only [f5] at hst
    obtain ⟨S, _, _, h3, h4, _⟩ := hstop st (Or.inr (Or.inl hst))
    have := h4 hst
    simp only
    rw [hlow A (Nat.le_refl _) (by omega)]
    exact hi.cop st hst
  · intro st hst
    simp only [f5] at hst
    simp only [f5, f4, open?, hlen, Nat.add_sub_cancel]
    exact hstop st hst
  · intro h
    simp only [f5] at h
    simp only [f4, open?, hlen, Nat.add_sub_cancel]
    exact hwake h
  · intro h
    have ht : c.trig d = true := by
      unfold mark at h
      simp only [hm, trigOf] at h
      split at h
      · assumption
      · simp at h
    exact ⟨d, by simp, ht⟩
  · intro x
    rw [hlen]
    have hcount : (mark c s).postCount = if c.trig d then c.post else s.postCount - 1 := by
      unfold mark
      simp only [hm, trigOf]
      split <;> simp [*]
    simp only [hcount]
    cases ht : c.trig d with
    | true =>
      simp only [if_true]
      constructor
      · intro h; exact ⟨ws.length, d, by simp, ht, by omega⟩
      · rintro ⟨j, d', h1, _, h3⟩
        have := (List.getElem?_eq_some_iff.mp h1).1
        simp at this
        omega
    | false =>
      simp only [Bool.false_eq_true, if_false]
      rw [show x < s.postCount - 1 ↔ x + 1 < s.postCount by omega, hi.postI]
      constructor
      · rintro ⟨j, d', h1, h2, h3⟩
        exact ⟨j, d', by rw [List.getElem?_append_left (List.getElem?_eq_some_iff.mp h1).1]; exact h1, h2, by omega⟩
      · rintro ⟨j, d', h1, h2, h3⟩
        rw [List.getElem?_append] at h1
        split at h1
        · exact ⟨j, d', h1, h2, by omega⟩
        · rename_i hj
          have hj' : j = ws.length := by
            have := (List.getElem?_eq_some_iff.mp h1).1
            simp at this; omega
          subst hj'
          simp at h1
          subst h1
          rw [ht] at h2; simp at h2
  · have hpw : (mark c s).preWritten = if s.preWritten < c.pre then s.preWritten + 1 else s.preWritten := by
      unfold mark
      simp only
      split <;> rfl
    simp only [hpw, hlen, hi.preW]
    split <;> omega

private theorem inv_prod {c : Cfg α} (hp : c.pre < c.n) {s : St α} {ws : List α} {A : Nat} (hi : Inv c s ws A)
    {s' : St α} {o : List (Obs α)} (h : step c s .prod = some (s', o)) :
    Inv c s' (ws ++ written o) A ∧ delivered o = [] ∧ passed o = 0 ∧ .overrun ∉ o ∧ (∀ d, .called d ∉ o) ∧ (written o).length ≤ 1 ∧
      s'.cons = s.cons := by
  cases hpr : s.prod with
  | idle => simp [step, prodStep, hpr] at h
  | copying d =>
    simp [step, prodStep, hpr] at h
    obtain ⟨rfl, rfl⟩ := h
    have hb := hi.busy (Or.inl ⟨d, hpr⟩)
    have hw : s.w = ws.length % c.n := by have := hi.w; simpa [hpr, open?] using this
    have hwp : s.w = phys c.n c.pre (ws.length + c.pre) := by rw [phys_sample (by omega)]; exact hw
    have hle := hi.le
    have hstop := hi.stop
    have hwake := hi.wake
    simp only [hpr, open?, Nat.sub_zero] at hle hstop hwake
    refine ⟨?_, rfl, rfl, by simp, by simp, by simp [written], rfl⟩
    simp only [written, List.append_nil]
    refine ⟨by simpa [open?] using hle, by simp [open?], hi.room, by simp, fun _ => hb, by simpa [open?] using hw, hi.r, ?_, ?_, hi.flagS, hi.flagE, hi.adv,
      hi.cop, by simpa [open?] using hstop, by simpa [open?] using hwake, hi.was, hi.postI, hi.preW⟩
    · intro K h1 h2 h3
      simp only at h1 ⊢
      rw [upd_ne _ _ (by rw [hwp]; exact phys_ne h3 (by omega))]
      exact hi.mem K h1 h2 h3
    · intro d' hd'
      simp at hd'
      subst hd'
      simp only
      rw [upd_self]
  | marking d =>
    cases d with
    | none => exact absurd hpr hi.noOver.1
    | some d =>
      simp [step, prodStep, hpr] at h
      obtain ⟨rfl, rfl⟩ := h
      exact ⟨inv_mark hp hi hpr, rfl, rfl, by simp, by simp, by simp [written], (mark_frame c s).2.2.2.2⟩
  | closing b =>
    cases b with
    | false => exact absurd hpr hi.noOver.2
    | true =>
      simp [step, prodStep, hpr] at h
      obtain ⟨rfl, rfl⟩ := h
      refine ⟨?_, rfl, rfl, by simp, by simp, by simp [written], rfl⟩
      simp only [written, List.append_nil]
      have hop := hi.open_le
      have hw := hi.w
      have hle := hi.le
      simp only [hpr, open?] at hop hw hle
      refine ⟨by simp [open?]; omega, by simp [open?], hi.room, by simp, by simp, ?_, hi.r, hi.mem, by simp, hi.flagS, hi.flagE, hi.adv, hi.cop, ?_, by simp,
        hi.was, hi.postI, hi.preW⟩
      · simp only [open?, hw]
        rw [incr_mod (by omega)]
        congr 1; omega
      · intro st hst
        obtain ⟨S, h1, h2, h3, h4, _⟩ := hi.stop st hst
        refine ⟨S, h1, h2, ?_, h4, fun _ => rfl⟩
        simp [hpr, open?] at h3 ⊢; omega

private theorem inv_cons {c : Cfg α} (hp : c.pre < c.n) (hn2 : 2 ≤ c.n) {s : St α} {ws : List α} {A : Nat} (hi : Inv c s ws A)
    {s' : St α} {o : List (Obs α)} (h : step c s .cons = some (s', o)) :
    Inv c s' ws (A + passed o) ∧ written o = [] ∧ .overrun ∉ o ∧ (∀ d, .called d ∉ o) ∧
      expected c.pre c.post c.trig ws (A + passed o + lag s'.cons - c.pre) =
        expected c.pre c.post c.trig ws (A + lag s.cons - c.pre) ++ delivered o := by
  obtain ⟨mem, flag, w, r, sem, posted, was, pc, pw, prod, cons⟩ := s
  have hle := hi.le
  have hroom := hi.room
  have hw : w = (ws.length - open? prod) % c.n := hi.w
  have hr : r = phys c.n c.pre A := hi.r
  have hmax : c.pre ≤ max c.pre 1 ∧ 1 ≤ max c.pre 1 := by omega
  have hwl : ws.length - open? prod ≤ ws.length := Nat.sub_le _ _
  cases cons with
  | begin =>
    simp [step, consStep, show c.n ≠ 1 by omega] at h
    obtain ⟨rfl, rfl⟩ := h
    refine ⟨?_, rfl, by simp, by simp, by simp [delivered, passed, lag]⟩
    refine ⟨hle, hi.open_le, hroom, hi.noOver, hi.busy, hw, hr, hi.mem, hi.memW, hi.flagS, hi.flagE, by simp, by simp, ?_, by simp, hi.was, hi.postI, hi.preW⟩
    intro st hst
    simp at hst
    subst hst
    refine ⟨ws.length - open? prod, ?_, hle, Nat.le_refl _, by simp, by simp⟩
    rw [hw, stopIdx_phys c hp]
  | scan st =>
    obtain ⟨S, h1, h2, h3, h4, h5⟩ := hi.stop st (Or.inl rfl)
    simp only [lag, Nat.add_zero] at h2
    simp only at h3
    by_cases hrs : r = st
    · have hDS : A = S := (phys_inj (n := c.n) (p := c.pre) (D := A) (Nat.le_refl _) h2 (by omega) (by omega)).mp (by rw [← hr, ← h1]; exact hrs)
      simp [step, consStep, hrs] at h
      obtain ⟨rfl, rfl⟩ := h
      refine ⟨?_, rfl, by simp, by simp, by simp [delivered, passed, lag]⟩
      refine ⟨hle, hi.open_le, hroom, hi.noOver, hi.busy, hw, hrs ▸ hr, hi.mem, hi.memW, hi.flagS, hi.flagE, by simp, by simp, by simp, ?_, hi.was, hi.postI, hi.preW⟩
      intro _ hne
      exact h5 (by rw [← hDS]; exact hne)
    · have hDS : A < S := by
        rcases Nat.lt_or_eq_of_le h2 with h | h
        · exact h
        · exact absurd (by rw [hr, h1, h]) hrs
      have hfs := hi.flagS A (by simp [lag]) (by omega)
      cases hf : flag r with
      | true =>
        simp [step, consStep, hrs, hf] at h
        obtain ⟨rfl, rfl⟩ := h
        refine ⟨?_, rfl, by simp, by simp, by simp [delivered, passed, lag]⟩
        refine ⟨hle, hi.open_le, hroom, hi.noOver, hi.busy, hw, hr, hi.mem, hi.memW, hi.flagS, hi.flagE, by simp, ?_, ?_, by simp, hi.was, hi.postI, hi.preW⟩
        · intro _ _; rw [hr] at hf; exact hf
        · intro st' hst'
          simp at hst'
          subst hst'
          exact ⟨S, h1, h2, h3, fun _ => hDS, h5⟩
      | false =>
        simp [step, consStep, hrs, hf] at h
        obtain ⟨rfl, rfl⟩ := h
        rw [hr] at hf
        refine ⟨?_, rfl, by simp, by simp, ?_⟩
        · refine ⟨by simp [passed, lag]; omega, hi.open_le, hroom, hi.noOver, hi.busy, hw, hr, ?_, hi.memW, ?_, hi.flagE, ?_, by simp, ?_, by simp, hi.was,
            hi.postI, hi.preW⟩
          · intro K hK; exact hi.mem K (by simp [lag, passed] at hK ⊢; omega)
          · intro K hK; exact hi.flagS K (by simp [lag, passed] at hK ⊢; omega)
          · intro _ _; exact hf
          · intro st' hst'
            simp at hst'
            subst hst'
            exact ⟨S, h1, by simp [lag, passed]; omega, h3, by simp, h5⟩
        · simp only [passed, delivered, lag, Nat.add_zero, List.append_nil]
          have hns : ¬ (c.pre ≤ A ∧ stored c.pre c.post c.trig ws (A - c.pre) = true) := by
            rw [← hfs]; simp [hf]
          by_cases hpA : c.pre ≤ A
          · rw [show A + 1 - c.pre = (A - c.pre) + 1 by omega, expected_succ, if_neg (fun h => hns ⟨hpA, h⟩), List.append_nil]
          · rw [show A + 1 - c.pre = A - c.pre by omega]
  | copying st =>
    obtain ⟨S, h1, h2, h3, h4, h5⟩ := hi.stop st (Or.inr (Or.inl rfl))
    have hDS : A < S := h4 rfl
    simp only at h3
    have hf := hi.cop st rfl
    have hfs := (hi.flagS A (by simp [lag]) (by omega)).mp hf
    have hm : mem r = ws[A - c.pre]? := by rw [hr]; exact hi.mem A (by simp [lag]) hfs.1 (by omega)
    simp only [step, consStep, Option.some.injEq, Prod.mk.injEq] at h
    obtain ⟨rfl, rfl⟩ := h
    refine ⟨?_, rfl, by simp, by simp, ?_⟩
    · refine ⟨by simp [passed, lag]; omega, hi.open_le, hroom, hi.noOver, hi.busy, hw, hr, ?_, hi.memW, ?_, hi.flagE, by simp, by simp, ?_, by simp, hi.was,
        hi.postI, hi.preW⟩
      · intro K hK; exact hi.mem K (by simp [lag, passed] at hK ⊢; omega)
      · intro K hK; exact hi.flagS K (by simp [lag, passed] at hK ⊢; omega)
      · intro st' hst'
        simp at hst'
        subst hst'
        exact ⟨S, h1, by simp [lag, passed]; omega, h3, by simp, h5⟩
    · simp only [passed, delivered, lag, Nat.add_zero, hm]
      rw [show A + 1 - c.pre = (A - c.pre) + 1 by omega, expected_succ, if_pos hfs.2]
  | clearing st =>
    simp only [lag] at hle
    simp only [step, consStep, Option.some.injEq, Prod.mk.injEq] at h
    obtain ⟨rfl, rfl⟩ := h
    refine ⟨?_, rfl, by simp, by simp, by simp [delivered, passed, lag]⟩
    refine ⟨hle, hi.open_le, hroom, hi.noOver, hi.busy, hw, hr, hi.mem, hi.memW, ?_, ?_, ?_, by simp, ?_, by simp, hi.was, hi.postI, hi.preW⟩
    · intro K h1 h2
      simp only [lag, passed, Nat.add_zero] at h1
      simp only
      rw [upd_ne _ _ (by rw [hr]; exact (phys_ne (by omega) (by omega)).symm)]
      exact hi.flagS K h1 h2
    · intro K h1 h2
      simp only [passed, Nat.add_zero] at h2
      simp only
      by_cases hkw : phys c.n c.pre K = r
      · rw [hkw, upd_self]
      · rw [upd_ne _ _ hkw]
        exact hi.flagE K h1 h2
    · intro _ _
      simp only [passed, Nat.add_zero]
      rw [hr, upd_self]
    · intro st' hst'
      simp at hst'
      subst hst'
      obtain ⟨S, h1, h2, h3, h4, h5⟩ := hi.stop st (Or.inr (Or.inr (Or.inl rfl)))
      exact ⟨S, h1, h2, h3, by simp, h5⟩
  | advance st =>
    simp only [lag] at hle
    have hadv := hi.adv st rfl
    simp [step, consStep, show 1 < c.n by omega] at h
    obtain ⟨rfl, rfl⟩ := h
    refine ⟨?_, rfl, by simp, by simp, by simp [delivered, passed, lag]⟩
    refine ⟨hle, hi.open_le, by simp [passed]; omega, hi.noOver, ?_, hw, ?_, hi.mem, hi.memW, hi.flagS, ?_, by simp, by simp, ?_, by simp, hi.was, hi.postI, hi.preW⟩
    · intro hb; have := hi.busy hb; simp [passed]; omega
    · simp only [passed, hr]
      rw [incr_phys (by omega)]
    · intro K h1 h2
      simp only [passed] at h2
      by_cases hK : K < c.n + A
      · exact hi.flagE K h1 hK
      · have : K = c.n + A := by omega
        subst this
        rw [phys_add_n]; exact hadv
    · intro st' hst'
      simp at hst'
      subst hst'
      obtain ⟨S, h1, h2, h3, h4, h5⟩ := hi.stop st (Or.inr (Or.inr (Or.inr rfl)))
      exact ⟨S, h1, h2, h3, by simp, h5⟩
  | finish =>
    simp only [step, consStep, Option.some.injEq, Prod.mk.injEq] at h
    obtain ⟨rfl, rfl⟩ := h
    refine ⟨?_, rfl, by simp, by simp, by simp [delivered, passed, lag]⟩
    exact ⟨hle, hi.open_le, hroom, hi.noOver, hi.busy, hw, hr, hi.mem, hi.memW, hi.flagS, hi.flagE, by simp, by simp, by simp, fun _ => hi.wake (Or.inl rfl),
      hi.was, hi.postI, hi.preW⟩
  | waiting =>
    simp only [step, consStep] at h
    split at h
    · simp only [Option.some.injEq, Prod.mk.injEq] at h
      obtain ⟨rfl, rfl⟩ := h
      refine ⟨?_, rfl, by simp, by simp, by simp [delivered, passed, lag]⟩
      exact ⟨hle, hi.open_le, hroom, hi.noOver, hi.busy, hw, hr, hi.mem, hi.memW, hi.flagS, hi.flagE, by simp, by simp, by simp, by simp,
        hi.was, hi.postI, hi.preW⟩
    · simp at h
  | reset =>
    simp only [step, consStep, Option.some.injEq, Prod.mk.injEq] at h
    obtain ⟨rfl, rfl⟩ := h
    refine ⟨?_, rfl, by simp, by simp, by simp [delivered, passed, lag]⟩
    exact ⟨hle, hi.open_le, hroom, hi.noOver, hi.busy, hw, hr, hi.mem, hi.memW, hi.flagS, hi.flagE, by simp, by simp, by simp, by simp,
      hi.was, hi.postI, hi.preW⟩

private def Good (c : Cfg α) (s : St α) (t : List (Obs α)) : Prop :=
  Inv c s (written t) (passed t) ∧ delivered t = expected c.pre c.post c.trig (written t) (passed t + lag s.cons - c.pre) ∧ .overrun ∉ t

private theorem good_step {c : Cfg α} (hp : c.pre < c.n) (hn2 : 2 ≤ c.n) {s : St α} {t : List (Obs α)} {e : Ev α} {s' : St α} {o : List (Obs α)}
    (hg : Good c s t) (h : step c s e = some (s', o)) (hr : Roomy c.n c.pre (t ++ o)) : Good c s' (t ++ o) := by
  obtain ⟨hi, hd, ho⟩ := hg
  unfold Good
  rw [t_written_append, t_delivered_append, t_passed_append]
  cases e with
  | exec d =>
    have hcall : o = .called d :: o.drop 1 ∧ s'.cons = s.cons := by
      simp only [step] at h
      split at h
      · split at h
        · simp at h; obtain ⟨rfl, rfl⟩ := h; simp
        · simp at h; obtain ⟨rfl, rfl⟩ := h; simp
      · simp at h
    have hroom := hr t d (o.drop 1) (by rw [← hcall.1])
    obtain ⟨rfl, hi'⟩ := inv_exec hp hi hroom h
    simp only [written, delivered, passed, List.append_nil, Nat.add_zero, hcall.2]
    exact ⟨hi', hd, by simpa using ho⟩
  | prod =>
    obtain ⟨hi', h1, h2, h3, _, h5, h6⟩ := inv_prod hp hi h
    rw [h1, h2, List.append_nil, Nat.add_zero, h6]
    refine ⟨hi', ?_, ?_⟩
    · rw [hd]
      match hwo : written o, h5 with
      | [], _ => simp
      | [x], _ =>
        rw [expected_snoc]
        have := hi.le
        omega
    · intro hm; rcases List.mem_append.mp hm with hm | hm
      · exact ho hm
      · exact h3 hm
  | cons =>
    obtain ⟨hi', h1, h2, _, h4⟩ := inv_cons hp hn2 hi h
    rw [h1, List.append_nil, hd, h4]
    refine ⟨hi', rfl, ?_⟩
    intro hm; rcases List.mem_append.mp hm with hm | hm
    · exact ho hm
    · exact h2 hm

private theorem good_run {c : Cfg α} (hp : c.pre < c.n) (hn2 : 2 ≤ c.n) {es : List (Ev α)} {s : St α} {t : List (Obs α)}
    (h : run c (started c) es = some (s, t)) (hr : Roomy c.n c.pre t) : Good c s t := by
  have key : ∀ {s : St α} {t : List (Obs α)}, Reach c (started c) s t → Roomy c.n c.pre t → Good c s t := by
    intro s t hreach
    induction hreach with
    | start => intro _; exact ⟨started_inv c hp hn2, by simp [started, delivered, passed, expected, lag], by simp⟩
    | step hreach hs ih => intro hr; exact good_step hp hn2 (ih (roomy_prefix hr)) hs hr
  exact key (reach_run h) hr

private theorem accepted_pre {c : Cfg α} (ha : accepted c = true) : c.pre < c.n := by
  simp [accepted] at ha; omega

/-- C33: for every accepted configuration with at least two buffers and every schedule in which the consuming thread is never too late, what has been delivered
to the data source is, for some number `m` of samples, exactly the samples to be stored among the first `m`, in order, each once and with the right content;
no overrun is reported; and when the consuming thread is blocked with `Execute` not running, `m` is all but the last `pre` samples. -/
theorem c33_delivers_triggered_partial (c : Cfg α) (ha : accepted c = true) (hn : 2 ≤ c.n) (es : List (Ev α)) (s : St α) (t : List (Obs α))
    (h : run c (started c) es = some (s, t)) (hr : Roomy c.n c.pre t) :
    .overrun ∉ t ∧ ∃ m, m ≤ (written t).length - c.pre ∧ delivered t = expected c.pre c.post c.trig (written t) m ∧
      (s.prod = .idle → s.cons = .waiting → step c s .cons = none → m = (written t).length - c.pre) := by
  obtain ⟨hi, hd, ho⟩ := good_run (accepted_pre ha) hn h hr
  refine ⟨ho, passed t + lag s.cons - c.pre, ?_, hd, ?_⟩
  · have := hi.le; omega
  · intro hp hc hb
    have hsem : s.sem = false := by
      simp only [step, consStep, hc] at hb
      split at hb
      · simp at hb
      · rename_i h; simpa using h
    have hw := hi.wake (Or.inr hc)
    simp only [hp, open?, Nat.sub_zero, hsem] at hw
    have : passed t = (written t).length := by
      apply Decidable.byContradiction
      intro hne; exact absurd (hw hne) (by simp)
    rw [this, hc]; rfl

/-- C33: in those schedules, while the real-time thread writes or marks, the other thread does not access the buffer being written nor any of the buffers that may
be marked as pre-trigger ones. -/
theorem c33_no_simultaneous_access_partial (c : Cfg α) (ha : accepted c = true) (hn : 2 ≤ c.n) (es : List (Ev α)) (s : St α) (t : List (Obs α))
    (h : run c (started c) es = some (s, t)) (hr : Roomy c.n c.pre t) (d : α) (hpd : s.prod = .copying d ∨ s.prod = .marking (some d)) (stop : Nat)
    (hc : s.cons = .copying stop ∨ s.cons = .clearing stop) :
    s.r ≠ s.w ∧ ∀ j, j < c.pre → j < s.preWritten → s.r ≠ before c.n s.w j := by
  obtain ⟨hi, _, _⟩ := good_run (accepted_pre ha) hn h hr
  have hp := accepted_pre ha
  have hb := hi.busy (by rcases hpd with h | h; exact Or.inl ⟨d, h⟩; exact Or.inr ⟨d, h⟩)
  have hop : open? s.prod = 0 := by rcases hpd with h | h <;> rw [h] <;> rfl
  have hw := hi.w
  have hlt : passed t < (written t).length := by
    rcases hc with hc | hc
    · obtain ⟨S, _, _, h3, h4, _⟩ := hi.stop stop (Or.inr (Or.inl hc))
      have := h4 hc; omega
    · have := hi.le; rw [hc] at this; simp only [lag] at this; omega
  rw [hop, Nat.sub_zero] at hw
  refine ⟨?_, ?_⟩
  · rw [hi.r, hw, ← phys_sample (n := c.n) (p := c.pre) (k := (written t).length) (by omega)]
    exact phys_ne (by omega) (by omega)
  · intro j h1 h2
    rw [hi.preW] at h2
    rw [hi.r, hw, before_mod (by omega) (by omega), ← phys_sample (n := c.n) (p := c.pre) (k := (written t).length - (j + 1)) (by omega)]
    exact phys_ne (by omega) (by omega)

/-- From initialisation the thread alone reaches the waiting state from which the theorems start. -/
theorem c33_started_reached (c : Cfg α) (ha : accepted c = true) (hn : 2 ≤ c.n) :
    ∃ k t, run c (init c) (List.replicate k .cons) = some (started c, t) ∧ delivered t = [] := by
  have hp := accepted_pre ha
  by_cases h0 : c.pre = 0
  · refine ⟨5, [.passed], ?_, rfl⟩
    have h1 : c.n ≠ 1 := by omega
    have h2 : c.n - 1 ≠ 0 := by omega
    have h3 : 1 < c.n := by omega
    have h4 : c.n - 1 + 1 = c.n := by omega
    simp [run, step, consStep, init, started, stopIdx, h0, h1, h2, h3, h4, incr, List.replicate_succ]
  · refine ⟨3, [], ?_, rfl⟩
    have h1 : c.n ≠ 1 := by omega
    have h2 : c.n - c.pre ≠ c.n := by omega
    have h3 : (c.n - c.pre) % c.n = c.n - c.pre := Nat.mod_eq_of_lt (by omega)
    simp [run, step, consStep, init, started, stopIdx, h0, h1, h3, List.replicate_succ, Nat.pos_of_ne_zero h0]
    split <;> simp
    omega

/-! ### Disagreement -/

private def call (d : α) : List (Ev α) := [.exec d, .prod, .prod, .prod]

private def cfg : Cfg Nat := ⟨2, 0, 0, fun d => decide (100 ≤ d)⟩

/-- Defect: two buffers; two samples are written, the last one triggered, before the consuming thread runs. The thread finds nothing to do and blocks; one more
sample is written and looked at; the triggered sample is not delivered and the next `Execute` reports an overrun. -/
theorem c33_late_consumer_misses_trigger :
    ((run cfg (started cfg) (call 1 ++ call 102 ++ List.replicate 9 .cons ++ call 3 ++ List.replicate 7 .cons ++ [.exec 4])).map
      fun p => (written p.2, delivered p.2, decide (.overrun ∈ p.2))) = some ([1, 102, 3], [], true) ∧
    expected 0 0 cfg.trig [1, 102, 3] 3 = [some 102] := by
  constructor <;> decide +kernel

private def roomyFrom (n p w a : Nat) : List (Obs α) → Bool
  | [] => true
  | .called _ :: t => decide (w + max p 1 + 1 ≤ n + a) && roomyFrom n p w a t
  | .written _ :: t => roomyFrom n p (w + 1) a t
  | .passed :: t => roomyFrom n p w (a + 1) t
  | _ :: t => roomyFrom n p w a t

private theorem roomyFrom_sound (n p : Nat) : ∀ (t : List (Obs α)) (w a : Nat), roomyFrom n p w a t = true →
    ∀ pre c post, t = pre ++ .called c :: post → w + (written pre).length + max p 1 + 1 ≤ n + (a + passed pre) := by
  intro t
  induction t with
  | nil => intro w d _ pre c post e; simp at e
  | cons x t ih =>
    intro w d h pre c post e
    cases pre with
    | nil =>
      simp at e
      obtain ⟨rfl, rfl⟩ := e
      simp [roomyFrom] at h
      simp [written, passed]; omega
    | cons y pre =>
      simp at e
      obtain ⟨rfl, rfl⟩ := e
      cases x with
      | called c' => simp [roomyFrom] at h; simpa [written, passed] using ih w d h.2 pre c post rfl
      | written c' => simp [roomyFrom] at h; have := ih (w + 1) d h pre c post rfl; simp [written, passed]; omega
      | delivered c' => simp [roomyFrom] at h; simpa [written, passed] using ih w d h pre c post rfl
      | overrun => simp [roomyFrom] at h; simpa [written, passed] using ih w d h pre c post rfl
      | returned b => simp [roomyFrom] at h; simpa [written, passed] using ih w d h pre c post rfl
      | passed => simp [roomyFrom] at h; have := ih w (d + 1) h pre c post rfl; simp [written, passed]; omega

/-- Non-vacuity: three buffers, one pre-trigger and one post-trigger; the second of three samples is triggered. -/
example :
    let c : Cfg Nat := ⟨3, 1, 1, fun d => decide (100 ≤ d)⟩
    ∃ (s : St Nat) (t : List (Obs Nat)),
      run c (started c) (call 1 ++ call 102 ++ List.replicate 10 .cons ++ call 3 ++ List.replicate 7 .cons) = some (s, t) ∧
      Roomy c.n c.pre t ∧ accepted c = true ∧ written t = [1, 102, 3] ∧ delivered t = [some 1, some 102] := by
  intro c
  generalize hes : (call 1 ++ call 102 ++ List.replicate 10 .cons ++ call 3 ++ List.replicate 7 .cons : List (Ev Nat)) = es
  have h : ((run c (started c) es).map fun p => (roomyFrom 3 1 0 0 p.2, written p.2, delivered p.2)) =
      some (true, [1, 102, 3], [some 1, some 102]) := by
    subst hes; decide +kernel
  cases hrun : run c (started c) es with
  | none => simp [hrun] at h
  | some p =>
    simp [hrun] at h
    refine ⟨p.1, p.2, rfl, ?_, by decide, h.2.1, h.2.2⟩
    intro pre x post e
    have := roomyFrom_sound 3 1 _ 0 0 h.1 pre x post e
    show (written pre).length + max 1 1 + 1 ≤ 3 + passed pre
    omega

end Verif.Props
