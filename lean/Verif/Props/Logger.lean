import Verif.Proof.Logger

/-!
# C80 — the messages of the logger

`calls (init n) os` is what a logger of `n` pages does for the calls `os` and what each call is observed to do; `Legal`
says that the descriptions are long enough for what the code copies and that only pages obtained from `GetLogEntry` are
returned.  `logged`, `delivered` and `held` read the observations (`Spec/Logger.lean`).
-/
set_option linter.unusedSimpArgs false
set_option maxRecDepth 8000
namespace Verif.Logger
open Verif.Spec.Logger

/-- **C80 nothing is lost, nothing is handed out twice.**  After any calls that do not overlap the messages that were
accepted are those that were handed out and those that are waiting, each as often as it was logged and with its content;
the number of logs is the number of those that are waiting, and no page is in two hands.

Partial: of calls that overlap only the containers are covered (C23), and with the container of the messages they may
fail (`c80_overlap_fails`); the messages are not handed out in the order in which they were logged (`c80_order_fails`). -/
theorem c80_history_partial (n : Nat) (hn : 0 < n) (os : List Op) (h : Legal n os) :
    ∃ waiting : List (Nat × List Nat),
      (delivered (calls (init n) os).2 ++ waiting).Perm (logged (calls (init n) os).2) ∧
      getNumberOfLogs (calls (init n) os).1 = waiting.length ∧ (held (calls (init n) os).2).Nodup ∧
      (∀ p ∈ held (calls (init n) os).2, p < n) ∧
      waiting.length + (held (calls (init n) os).2).length ≤ n ∧ Obs.oob ∉ (calls (init n) os).2 := by
  obtain ⟨ff, fl, g⟩ := good_legal hn h
  have hc := count_parts g
  refine ⟨queue n fl (calls (init n) os).1.pages, g.per, ?_, g.nod, fun p hp => (g.d2 p hp).2.2, ?_, g.oob⟩
  · unfold getNumberOfLogs
    rw [getSize_quiet g.logs hn, queue, List.length_map]
  · rw [queue, List.length_map]; omega

/-- **C80 a message is dropped only when all the pages are in use.** -/
theorem c80_log (n : Nat) (hn : 0 < n) (os : List Op) (h : Legal n os) (info : Nat) (d : List Nat) (hd : 200 ≤ d.length) :
    (apply (calls (init n) os).1 (.log info d)).2 =
      if pending (calls (init n) os).2 + (held (calls (init n) os).2).length < n then .logged info (d.take 200)
      else .lost info (d.take 200) := by
  obtain ⟨ff, fl, g⟩ := good_legal hn h
  have hc := count_parts g
  have hz := filter_length_zero g.free.lt
  rw [pending_eq g]
  rcases good_log hn g info d hd with ⟨h0, h1, -⟩ | ⟨p, hp, -, h1, -⟩
  · have := hz.mpr h0
    rw [if_neg (by omega)]; exact h1
  · have : ((List.range n).filter ff).length ≠ 0 := by
      intro e
      have := hz.mp e p
      rw [hp] at this; cases this
    rw [if_pos (by omega)]; exact h1

/-- **C80 a message that is waiting is handed out, in a page that nobody else has.** -/
theorem c80_get (n : Nat) (hn : 0 < n) (os : List Op) (h : Legal n os) :
    (pending (calls (init n) os).2 = 0 → (apply (calls (init n) os).1 .get).2 = .empty) ∧
    (pending (calls (init n) os).2 ≠ 0 → ∃ p info text rest,
      (apply (calls (init n) os).1 .get).2 = .got p info text ∧ p < n ∧ p ∉ held (calls (init n) os).2 ∧
      (delivered (calls (init n) os).2 ++ (info, text) :: rest).Perm (logged (calls (init n) os).2)) := by
  obtain ⟨ff, fl, g⟩ := good_legal hn h
  have hz := filter_length_zero g.logs.lt
  rw [pending_eq g]
  rcases good_get hn g with ⟨h0, -, h1, -⟩ | ⟨p, hp, -, -, h1, -, h2⟩
  · exact ⟨fun _ => h1, fun e => absurd (hz.mpr h0) e⟩
  · refine ⟨fun e => ?_, fun _ => ?_⟩
    · have := hz.mp e p
      rw [hp] at this; cases this
    · refine ⟨p, _, _, queue n (fun i => if i = p then false else fl i) (apply (calls (init n) os).1 .get).1.pages, by rw [h1],
        g.logs.lt p hp, ?_, ?_⟩
      · intro hh
        have := (g.d2 p hh).2.1
        rw [hp] at this; cases this
      · have := h2.per
        rw [delivered_append, logged_append] at this
        simpa only [delivered, logged, List.append_nil, List.append_assoc, List.singleton_append] using this

private theorem drain_good {n : Nat} (hn : 0 < n) : ∀ (m : Nat) (os : List Op) (ff fl : Nat → Bool), Legal n os →
    Good n (calls (init n) os).1 (calls (init n) os).2 ff fl → ((List.range n).filter fl).length < m →
    ∃ os' : List Op, Legal n (os ++ os') ∧ (calls (init n) (os ++ os')).1 = (drain (calls (init n) os).1 m).1 ∧
      (∀ o ∈ os', o = .get ∨ ∃ p, o = .ret p) ∧
      delivered (calls (init n) (os ++ os')).2 = delivered (calls (init n) os).2 ++ (drain (calls (init n) os).1 m).2 ∧
      pending (calls (init n) (os ++ os')).2 = 0 ∧
      held (calls (init n) (os ++ os')).2 = held (calls (init n) os).2 := by
  intro m
  induction m with
  | zero => intro os ff fl _ _ h; omega
  | succ m ih =>
    intro os ff fl hl g hm
    have hlg : Legal n (os ++ [.get]) := .snoc hl trivial
    rcases good_get hn g with ⟨h0, h1, h2, h3⟩ | ⟨p, hp, -, h1, h2, hpg, h3⟩
    · refine ⟨[.get], hlg, ?_, by simp, ?_, ?_, ?_⟩
      · rw [calls_snoc]
        simp only [drain, apply, h1]
      · rw [calls_snoc, h2]
        simp only [delivered_append, drain, h1, delivered]
      · rw [calls_snoc, h2, pending_eq h3]
        exact (filter_length_zero g.logs.lt).mpr h0
      · rw [calls_snoc, h2, held_snoc]; rfl
    · have hc1 : calls (init n) (os ++ [.get]) = ((getLogEntry (calls (init n) os).1).1,
          (calls (init n) os).2 ++ [.got p (msg (calls (init n) os).1.pages p).1 (msg (calls (init n) os).1.pages p).2]) := by
        rw [calls_snoc, h2]
      have hheld : p ∈ held (calls (init n) (os ++ [.get])).2 := by
        rw [hc1, held_snoc]; exact List.mem_cons_self
      have hg1 : Good n (calls (init n) (os ++ [.get])).1 (calls (init n) (os ++ [.get])).2 ff
          (fun i => if i = p then false else fl i) := by
        rw [hc1]; rw [h2] at h3; exact h3
      have hg2 := good_ret hg1 hheld
      have hc2 : calls (init n) ((os ++ [.get]) ++ [.ret p]) = (returnPage (calls (init n) (os ++ [.get])).1 p,
          (calls (init n) (os ++ [.get])).2 ++ [.back p]) := by
        rw [calls_snoc]; rfl
      have hl2 : Legal n ((os ++ [.get]) ++ [.ret p]) := .snoc hlg hheld
      have hg3 : Good n (calls (init n) ((os ++ [.get]) ++ [.ret p])).1 (calls (init n) ((os ++ [.get]) ++ [.ret p])).2
          (fun i => if i = p then true else ff i) (fun i => if i = p then false else fl i) := by
        rw [hc2]; exact hg2
      have hlen := (filter_del fl p n (g.logs.lt p hp) hp).length_eq
      rw [List.length_cons] at hlen
      obtain ⟨os', a, b, c, d, e, f⟩ := ih _ _ _ hl2 hg3 (by omega)
      have hd : drain (calls (init n) os).1 (m + 1) =
          ((drain (calls (init n) ((os ++ [.get]) ++ [.ret p])).1 m).1,
            msg (calls (init n) os).1.pages p :: (drain (calls (init n) ((os ++ [.get]) ++ [.ret p])).1 m).2) := by
        rw [hc2, hc1]
        simp only [drain, h1, hpg]
        rfl
      refine ⟨.get :: .ret p :: os', ?_, ?_, ?_, ?_, ?_, ?_⟩
      · have : os ++ .get :: .ret p :: os' = ((os ++ [.get]) ++ [.ret p]) ++ os' := by simp
        rw [this]; exact a
      · have : os ++ .get :: .ret p :: os' = ((os ++ [.get]) ++ [.ret p]) ++ os' := by simp
        rw [this, b, hd]
      · intro o ho
        rcases List.mem_cons.mp ho with rfl | ho
        · exact Or.inl rfl
        · rcases List.mem_cons.mp ho with rfl | ho
          · exact Or.inr ⟨p, rfl⟩
          · exact c o ho
      · have : os ++ .get :: .ret p :: os' = ((os ++ [.get]) ++ [.ret p]) ++ os' := by simp
        rw [this, d, hd, hc2]
        simp only [delivered_append, hc1, delivered, List.append_nil, List.append_assoc, List.singleton_append]
      · have : os ++ .get :: .ret p :: os' = ((os ++ [.get]) ++ [.ret p]) ++ os' := by simp
        rw [this]; exact e
      · have : os ++ .get :: .ret p :: os' = ((os ++ [.get]) ++ [.ret p]) ++ os' := by simp
        rw [this, f, hc2, held_snoc, hc1]
        simp only [held_snoc, heldFrom, List.erase_cons_head]

/-- **C80 the service.**  An execution of the service that nobody disturbs hands to the consumers all the messages that
were waiting, each once, returns their pages and leaves no message behind; it is a sequence of `GetLogEntry` and
`ReturnPage`, so that what was said above goes on to hold after it. -/
theorem c80_drain (n : Nat) (hn : 0 < n) (os : List Op) (h : Legal n os) (m : Nat)
    (hm : pending (calls (init n) os).2 < m) :
    (delivered (calls (init n) os).2 ++ (drain (calls (init n) os).1 m).2).Perm (logged (calls (init n) os).2) ∧
    getNumberOfLogs (drain (calls (init n) os).1 m).1 = 0 ∧
    ∃ os' : List Op, Legal n (os ++ os') ∧ (calls (init n) (os ++ os')).1 = (drain (calls (init n) os).1 m).1 ∧
      (∀ o ∈ os', o = .get ∨ ∃ p, o = .ret p) ∧
      held (calls (init n) (os ++ os')).2 = held (calls (init n) os).2 := by
  obtain ⟨ff, fl, g⟩ := good_legal hn h
  rw [pending_eq g] at hm
  obtain ⟨os', a, b, c, d, e, f⟩ := drain_good hn m os ff fl h g hm
  have hlog : logged (calls (init n) (os ++ os')).2 = logged (calls (init n) os).2 := by
    rw [calls_append, logged_append]
    have : ∀ (os' : List Op) (l : Logger), (∀ o ∈ os', o = .get ∨ ∃ p, o = .ret p) → logged (calls l os').2 = [] := by
      intro os'
      induction os' with
      | nil => intro l _; rfl
      | cons o os' ih =>
        intro l hc
        have ih' := ih (apply l o).1 fun x hx => hc x (List.mem_cons_of_mem _ hx)
        rcases hc o List.mem_cons_self with rfl | ⟨p, rfl⟩
        · simp only [calls]
          cases hg : (getLogEntry l).2 <;> simp only [apply, hg, logged] at ih' ⊢ <;> exact ih'
        · simp only [calls, apply, logged] at ih' ⊢; exact ih'
    rw [this os' _ c, List.append_nil]
  obtain ⟨ff', fl', g'⟩ := good_legal hn a
  have hz := pending_eq g'
  rw [e] at hz
  have hq : queue n fl' (calls (init n) (os ++ os')).1.pages = [] := by
    rw [queue, List.map_eq_nil_iff, ← List.length_eq_zero_iff]; exact hz.symm
  refine ⟨?_, ?_, os', a, b, c, f⟩
  · have := g'.per
    rw [hq, List.append_nil, hlog, d] at this
    exact this
  · rw [← b]
    unfold getNumberOfLogs
    rw [getSize_quiet g'.logs hn, ← hz]; rfl

/-- Rounds in which the reader takes a message and returns its page, and a message is logged. -/
def rounds (n : Nat) (d : List Nat) : Nat → List Op
  | 0 => [.log 1 d, .log 2 d]
  | k + 1 => rounds n d k ++ [.get, .ret (n - 1), .log 3 d]

private structure Two (n : Nat) (d : List Nat) (l : Logger) (tr : List Obs) (ff fl : Nat → Bool) : Prop where
  good : Good n l tr ff fl
  fl : ∀ p, fl p = (decide (p = n - 1) || decide (p = n - 2))
  old : msg l.pages (n - 2) = (2, d.take 200)
  new : (msg l.pages (n - 1)).1 ≠ 2
  no : held tr = []

private theorem ff_of {n : Nat} {l : Logger} {tr : List Obs} {ff fl : Nat → Bool} (g : Good n l tr ff fl) (hno : held tr = [])
    (p : Nat) : ff p = (decide (p < n) && !fl p) := by
  by_cases hp : p < n
  · rcases g.all p hp with h | h | h
    · simp [h, hp, g.d1 p h]
    · have : ff p = false := by
        cases e : ff p with
        | false => rfl
        | true => have := g.d1 p e; rw [h] at this; cases this
      simp [this, h]
    · rw [hno] at h; cases h
  · have : ff p = false := by
      cases e : ff p with
      | false => rfl
      | true => exact absurd (g.free.lt p e) hp
    simp [this, hp]

private theorem log_at {n : Nat} (hn : 0 < n) {l : Logger} {tr : List Obs} {ff fl : Nat → Bool} (g : Good n l tr ff fl)
    (hno : held tr = []) (info : Nat) (d : List Nat) (hd : 200 ≤ d.length) (q : Nat) (hq : q < n) (hfq : fl q = false)
    (hmax : ∀ p, p < n → fl p = false → p ≤ q) :
    (apply l (.log info d)).2 = .logged info (d.take 200) ∧
      (∃ ff', Good n (apply l (.log info d)).1 (tr ++ [.logged info (d.take 200)]) ff'
        (fun p => if p = q then true else fl p)) ∧ msg (apply l (.log info d)).1.pages q = (info, d.take 200) ∧
      (∀ p, p ≠ q → (apply l (.log info d)).1.pages p = l.pages p) := by
  have hff := ff_of g hno
  rcases good_log hn g info d hd with ⟨h0, -, -⟩ | ⟨h, h1, h2, h3, h4, h5, h6⟩
  · have := hff q
    rw [h0 q] at this
    simp [hq, hfq] at this
  · have hhq : h = q := by
      have a := hff h
      rw [h1] at a
      simp only [Bool.true_eq, Bool.and_eq_true, decide_eq_true_eq, Bool.not_eq_true'] at a
      have b := hmax h a.1 a.2
      have c := h2 q (by rw [hff q]; simp [hq, hfq])
      omega
    subst hhq
    exact ⟨h3, ⟨_, h4⟩, h5, h6⟩

private theorem two_rounds (n : Nat) (hn : 2 ≤ n) (d : List Nat) (hd : 200 ≤ d.length) (k : Nat) :
    Legal n (rounds n d k) ∧ (∃ ff fl, Two n d (calls (init n) (rounds n d k)).1 (calls (init n) (rounds n d k)).2 ff fl) ∧
      (2, d.take 200) ∉ delivered (calls (init n) (rounds n d k)).2 ∧
      (delivered (calls (init n) (rounds n d k)).2).length = k ∧
      (2, d.take 200) ∈ logged (calls (init n) (rounds n d k)).2 := by
  induction k with
  | zero =>
    have hl : Legal n (rounds n d 0) := Legal.snoc (os := [.log 1 d]) (Legal.snoc (os := []) .nil hd) hd
    have g0 := good_init n
    obtain ⟨e1, ⟨ff1, g1⟩, m1, o1⟩ := log_at (by omega) g0 rfl 1 d hd (n - 1) (by omega) rfl (fun p hp _ => by omega)
    have hno1 : held ([] ++ [Obs.logged 1 (d.take 200)]) = [] := rfl
    obtain ⟨e2, ⟨ff2, g2⟩, m2, o2⟩ := log_at (by omega) g1 hno1 2 d hd (n - 2) (by omega)
      (by show (if n - 2 = n - 1 then true else false) = false; rw [if_neg (by omega)])
      (fun p hp hf => by
        have hf : (if p = n - 1 then true else false) = false := hf
        by_cases e : p = n - 1
        · rw [if_pos e] at hf; cases hf
        · omega)
    have hc : calls (init n) (rounds n d 0) = ((apply (apply (init n) (.log 1 d)).1 (.log 2 d)).1,
        [.logged 1 (d.take 200), .logged 2 (d.take 200)]) := by
      simp only [rounds, calls, e1, e2]
    rw [hc]
    refine ⟨hl, ⟨ff2, _, ⟨g2, ?_, m2, ?_, rfl⟩⟩, by simp [delivered], rfl, by simp [logged]⟩
    · intro p
      by_cases a : p = n - 1 <;> by_cases b : p = n - 2 <;> simp [a, b]
    · simp only [msg] at m1 ⊢
      rw [o2 (n - 1) (by omega)]
      rw [(Prod.mk.inj m1).1]; decide
  | succ k ih =>
    obtain ⟨hl, ⟨ff, fl, t⟩, hnot, hlen, hlog⟩ := ih
    obtain ⟨l, hl0⟩ : ∃ l, l = (calls (init n) (rounds n d k)).1 := ⟨_, rfl⟩
    obtain ⟨tr, htr⟩ : ∃ tr, tr = (calls (init n) (rounds n d k)).2 := ⟨_, rfl⟩
    rw [← hl0, ← htr] at t
    rw [← htr] at hnot hlen hlog
    have hflq : fl (n - 1) = true := by rw [t.fl]; simp
    rcases good_get (by omega) t.good with ⟨h0, -, -, -⟩ | ⟨h, h1, h2, h3, h4, h5, h6⟩
    · have := h0 (n - 1); rw [hflq] at this; cases this
    · have hh : h = n - 1 := by
        have a := t.good.logs.lt h h1
        have b := h2 _ hflq
        omega
      subst hh
      obtain ⟨m, hm⟩ : ∃ m, m = msg l.pages (n - 1) := ⟨_, rfl⟩
      have hg2 : (apply l .get).2 = .got (n - 1) m.1 m.2 := by rw [h4, hm]
      rw [← hm] at h6
      have hheld : held (tr ++ [.got (n - 1) m.1 m.2]) = [n - 1] := by rw [held_snoc, t.no]; rfl
      have g2 := good_ret h6 (p := n - 1) (by rw [hheld]; exact List.mem_cons_self)
      have hno2 : held ((tr ++ [.got (n - 1) m.1 m.2]) ++ [.back (n - 1)]) = [] := by
        rw [held_snoc, hheld]; simp [heldFrom]
      obtain ⟨e3, ⟨ff3, g3⟩, m3, o3⟩ := log_at (by omega) g2 hno2 3 d hd (n - 1) (by omega) (if_pos rfl)
        (fun p hp _ => by omega)
      have hpages : (apply (apply l .get).1 (.ret (n - 1))).1.pages = l.pages := by
        show (apply l .get).1.pages = l.pages
        rw [h4]; exact h5
      have hc : calls (init n) (rounds n d (k + 1)) =
          ((apply (apply (apply l .get).1 (.ret (n - 1))).1 (.log 3 d)).1,
            tr ++ [.got (n - 1) m.1 m.2, .back (n - 1), .logged 3 (d.take 200)]) := by
        simp only [rounds]
        rw [calls_append, ← hl0, ← htr]
        simp only [calls, e3, hg2]
        rfl
      have hleg : Legal n (rounds n d (k + 1)) := by
        have a : Legal n (rounds n d k ++ [.get]) := .snoc hl trivial
        have b : Legal n ((rounds n d k ++ [.get]) ++ [.ret (n - 1)]) := by
          refine .snoc a ?_
          show n - 1 ∈ held (calls (init n) (rounds n d k ++ [.get])).2
          rw [calls_snoc, ← hl0, ← htr, hg2]
          show n - 1 ∈ held (tr ++ [.got (n - 1) m.1 m.2])
          rw [hheld]; exact List.mem_cons_self
        have c : Legal n (((rounds n d k ++ [.get]) ++ [.ret (n - 1)]) ++ [.log 3 d]) := .snoc b hd
        have : rounds n d (k + 1) = ((rounds n d k ++ [.get]) ++ [.ret (n - 1)]) ++ [.log 3 d] := by simp [rounds]
        rw [this]; exact c
      have htr3 : (tr ++ [.got (n - 1) m.1 m.2, .back (n - 1), .logged 3 (d.take 200)] : List Obs) =
          ((tr ++ [.got (n - 1) m.1 m.2]) ++ [.back (n - 1)]) ++ [.logged 3 (d.take 200)] := by simp
      rw [hc]
      refine ⟨hleg, ⟨ff3, (fun p => if p = n - 1 then true else (if p = n - 1 then false else fl p)), ⟨?_, ?_, ?_, ?_, ?_⟩⟩,
        ?_, ?_, ?_⟩
      · rw [htr3]; exact g3
      · intro p
        by_cases a : p = n - 1
        · simp [a]
        · simp [a, t.fl p]
      · have := o3 (n - 2) (by omega)
        rw [hpages] at this
        unfold msg
        rw [this]
        exact t.old
      · rw [m3]; show (3 : Nat) ≠ 2; decide
      · rw [htr3, held_snoc, hno2]; rfl
      · rw [delivered_append]
        simp only [delivered, List.mem_append, List.mem_singleton, not_or]
        refine ⟨hnot, ?_⟩
        intro e
        have := t.new
        rw [← hm, ← (show ((2, d.take 200) : Nat × List Nat) = m from e)] at this
        exact this rfl
      · rw [delivered_append, List.length_append, hlen]; rfl
      · rw [logged_append]; exact List.mem_append_left _ hlog

/-- The messages are not handed out in the order in which they were logged, and one may wait for ever: whatever the number
of pages (two or more), two messages are logged and then the reader takes one message for every message that is logged.
After any number of rounds the second message has not been handed out. -/
theorem c80_order_fails (n : Nat) (hn : 2 ≤ n) (d : List Nat) (hd : 200 ≤ d.length) (k : Nat) :
    Legal n (rounds n d k) ∧ (2, d.take 200) ∈ logged (calls (init n) (rounds n d k)).2 ∧
      (delivered (calls (init n) (rounds n d k)).2).length = k ∧
      (2, d.take 200) ∉ delivered (calls (init n) (rounds n d k)).2 := by
  obtain ⟨h1, -, h2, h3, h4⟩ := two_rounds n hn d hd k
  exact ⟨h1, h4, h3, h2⟩

/-- 200 bytes are read from the description however short it is: with any array of fewer than 200 bytes the
read goes beyond its end. -/
theorem c80_short_fails (n : Nat) (hn : 0 < n) (info : Nat) (d : List Nat) (hd : d.length < 200) :
    (apply (init n) (.log info d)).2 = .oob := by
  have g := good_init n
  obtain ⟨h1, -⟩ := take_highest g.free (h := n - 1) (by simp; omega) (fun p hp => by
    have : p < n := by simpa using hp
    omega)
  have hlt : n - 1 < n := by omega
  have hg : (getPage (init n)).2 = some (n - 1) := by
    unfold getPage
    simp only [h1, g.hn, hlt, if_true]
  show (process (init n) info d).2 = .oob
  unfold process
  simp only [hg, maxSize, hd, if_true]

/-- A description of 200 characters or more arrives without the zero that ends a text. -/
theorem c80_long_fails : (calls (init 1) [.log 7 (List.replicate 250 65 ++ [0]), .get]).2 =
    [.logged 7 (List.replicate 200 65), .got 0 7 (List.replicate 200 65)] := by
  decide +kernel

open Verif.FastResource in
/-- The container of the messages of a logger of five pages, used by one reader (thread 0) and two writers (threads 1 and
2) whose calls overlap.  The pages 4, 3 and 2 are filled, the reader takes 4 and 3 and the writers get them again (1 gets
page 4, 2 gets page 3); while the reader looks for the third message 2 adds page 3 and 1 adds page 4. -/
def overlap : List Ev :=
  let r (t m : Nat) : List Ev := List.replicate m (.run t)
  [.give 1 4] ++ r 1 4 ++ [.give 1 3] ++ r 1 5 ++ [.give 1 2] ++ r 1 4 ++ [.take 0] ++ r 0 16 ++ [.take 0] ++ r 0 16 ++
    [.take 0] ++ r 0 7 ++ [.give 2 3] ++ r 2 5 ++ r 0 2 ++ [.give 1 4] ++ r 1 4 ++ r 0 20

open Verif.FastResource in
/-- With calls that overlap the reader may obtain a page in which nothing was written: nobody ever added page 0, only one
thread takes messages, and every page that is added is one that its writer has. -/
theorem c80_overlap_fails : Verif.Spec.FastResource.Legal [] (FastResource.init 3 5 true) overlap ∧
    (∀ e ∈ overlap, e ≠ .take 1 ∧ e ≠ .take 2) ∧
    (run (FastResource.init 3 5 true) overlap).trace =
      [.gave 1 4, .gave 1 3, .gave 1 2, .took 0 4, .took 0 3, .gave 2 3, .gave 1 4, .took 0 0] := by
  exact ⟨by decide +kernel, by decide +kernel, by decide +kernel⟩

/-- The hypotheses are met: a logger of two pages. -/
example : ∃ d : List Nat, d.length = 200 ∧ Legal 2 [.log 1 d, .log 2 d, .get, .ret 1, .log 3 d] ∧
    (calls (init 2) [.log 1 d, .log 2 d, .log 5 d, .get, .ret 1, .get, .get]).2 =
      [.logged 1 d, .logged 2 d, .lost 5 d, .got 1 1 d, .back 1, .got 0 2 d, .empty] := by
  refine ⟨List.replicate 200 9, rfl, ?_, by decide +kernel⟩
  have := (two_rounds 2 (by omega) (List.replicate 200 9) (by decide) 1).1
  simpa [rounds] using this

end Verif.Logger
