import Verif.Proof.FastResourceSeq
import Verif.Spec.Logger

set_option linter.unusedSimpArgs false
namespace Verif.Logger
open Verif.FastResource Verif.Spec.Logger

/-! ### The highest element of a finite set -/

theorem exists_highest (f : Nat → Bool) (n : Nat) (hlt : ∀ p, f p = true → p < n) :
    (∀ p, f p = false) ∨ ∃ h, f h = true ∧ ∀ p, f p = true → p ≤ h := by
  have key : ∀ n, (∀ p, p < n → f p = false) ∨ ∃ h, f h = true ∧ ∀ p, p < n → f p = true → p ≤ h := by
    intro n
    induction n with
    | zero => exact Or.inl fun p hp => absurd hp (Nat.not_lt_zero p)
    | succ n ih =>
      cases hn : f n with
      | true => exact Or.inr ⟨n, hn, fun p hp _ => Nat.le_of_lt_succ hp⟩
      | false =>
        rcases ih with h | ⟨h, h1, h2⟩
        · left
          intro p hp
          rcases Nat.eq_or_lt_of_le (Nat.le_of_lt_succ hp) with e | e
          · rw [e]; exact hn
          · exact h p e
        · right
          refine ⟨h, h1, ?_⟩
          intro p hp hf
          rcases Nat.eq_or_lt_of_le (Nat.le_of_lt_succ hp) with e | e
          · rw [e, hn] at hf; cases hf
          · exact h2 p e hf
  rcases key n with h | ⟨h, h1, h2⟩
  · left
    intro p
    cases hp : f p with
    | false => rfl
    | true => rw [h p (hlt p hp)] at hp; cases hp
  · exact Or.inr ⟨h, h1, fun p hp => h2 p (hlt p hp) hp⟩

theorem filter_add (f : Nat → Bool) (p n : Nat) (hp : p < n) (hf : f p = false) :
    ((List.range n).filter fun i => if i = p then true else f i).Perm (p :: (List.range n).filter f) := by
  have key : ∀ n, ((List.range n).filter fun i => if i = p then true else f i).Perm
      (if p < n then p :: (List.range n).filter f else (List.range n).filter f) := by
    intro n
    induction n with
    | zero => exact List.Perm.refl _
    | succ n ih =>
      rw [List.range_succ, List.filter_append, List.filter_append]
      by_cases e : n = p
      · subst e
        have h1 : ¬ n < n := Nat.lt_irrefl n
        rw [if_neg h1] at ih
        rw [if_pos (Nat.lt_succ_self n)]
        simp only [List.filter_cons, List.filter_nil, if_true, hf, Bool.false_eq_true, if_false, List.append_nil]
        exact (List.perm_append_singleton n _).trans (List.Perm.cons n ih)
      · have h2 : (p < n + 1) ↔ p < n := by omega
        by_cases h3 : p < n
        · rw [if_pos h3] at ih
          rw [if_pos (h2.mpr h3)]
          simp only [List.filter_cons, List.filter_nil, e, if_false]
          exact List.Perm.append_right _ ih
        · rw [if_neg h3] at ih
          rw [if_neg (fun h => h3 (h2.mp h))]
          simp only [List.filter_cons, List.filter_nil, e, if_false]
          exact List.Perm.append_right _ ih
  have := key n
  rwa [if_pos hp] at this

theorem filter_del (f : Nat → Bool) (p n : Nat) (hp : p < n) (hf : f p = true) :
    ((List.range n).filter f).Perm (p :: (List.range n).filter fun i => if i = p then false else f i) := by
  have h := filter_add (fun i => if i = p then false else f i) p n hp (if_pos rfl)
  have e : (fun i => if i = p then true else (fun i => if i = p then false else f i) i) = f := by
    funext i
    by_cases e : i = p
    · subst e; simp [hf]
    · simp [e]
  rwa [e] at h

/-! ### The two containers -/

theorem take_highest {n : Nat} {s : State} {f : Nat → Bool} (hq : Quiet n s f) {h : Nat} (hf : f h = true)
    (hmax : ∀ p, f p = true → p ≤ h) :
    (take s).2 = some h ∧ Quiet n (take s).1 (fun p => if p = h then false else f p) := by
  obtain ⟨s', h1, h2, h3⟩ := quiet_take hq hf hmax (N := 4 * s.L + 4) (by rw [hq.hL]; omega)
  have : call s (.take 0) = s' := h1
  unfold take
  rw [this]
  simp only [h2, List.getLast?_append, List.getLast?_singleton, Option.some_or]
  exact ⟨trivial, h3⟩

theorem take_none {n : Nat} {s : State} {f : Nat → Bool} (hq : Quiet n s f) (hn : 0 < n) (hf : ∀ p, f p = false) :
    (take s).2 = none ∧ Quiet n (take s).1 f := by
  obtain ⟨s', h1, h2, h3⟩ := quiet_take_empty hq hn hf (N := 4 * s.L + 4) (by omega)
  have : call s (.take 0) = s' := h1
  unfold take
  rw [this]
  simp only [h2, List.getLast?_append, List.getLast?_singleton, Option.some_or]
  exact ⟨trivial, h3⟩

theorem give_quiet {n : Nat} {s : State} {f : Nat → Bool} (hq : Quiet n s f) {p : Nat} (hp : p < n) (hf : f p = false) :
    Quiet n (give s p) (fun i => if i = p then true else f i) := by
  obtain ⟨s', h1, h2, h3⟩ := quiet_give hq hp hf (N := 4 * s.L + 4) (by rw [hq.hL]; omega)
  have : call s (.give 0 p) = s' := h1
  unfold give
  rw [this]; exact h3

theorem getSize_quiet {n : Nat} {s : State} {f : Nat → Bool} (hq : Quiet n s f) (hn : 0 < n) :
    getSize s = ((List.range n).filter f).length := by
  unfold getSize
  rw [if_neg (by rw [hq.hn]; omega), hq.size]
  unfold freeCnt
  rw [List.countP_eq_length_filter]
  congr 2
  refine List.filter_congr ?_
  intro p hp
  have h1 := List.mem_range.mp hp
  have h2 := le_levels n
  have : 0 ∈ chain (levels n) p := zero_mem_chain (by omega)
  simp [this]

attribute [local irreducible] take give call FastResource.init

/-! ### The invariant -/

def msg (pages : Nat → Page) (p : Nat) : Nat × List Nat := ((pages p).info, (pages p).text)

def queue (n : Nat) (fl : Nat → Bool) (pages : Nat → Page) : List (Nat × List Nat) :=
  ((List.range n).filter fl).map (msg pages)

structure Good (n : Nat) (l : Logger) (tr : List Obs) (ff fl : Nat → Bool) : Prop where
  hn : l.n = n
  free : Quiet n l.free ff
  logs : Quiet n l.logs fl
  d1 : ∀ p, ff p = true → fl p = false
  d2 : ∀ p ∈ held tr, ff p = false ∧ fl p = false ∧ p < n
  all : ∀ p, p < n → ff p = true ∨ fl p = true ∨ p ∈ held tr
  nod : (held tr).Nodup
  ind : ∀ p, fl p = true ∨ p ∈ held tr → (l.pages p).index = p
  per : (delivered tr ++ queue n fl l.pages).Perm (logged tr)
  oob : Obs.oob ∉ tr

theorem logged_append (a b : List Obs) : logged (a ++ b) = logged a ++ logged b := by
  induction a with
  | nil => rfl
  | cons o a ih => cases o <;> simp [logged, ih]

theorem delivered_append (a b : List Obs) : delivered (a ++ b) = delivered a ++ delivered b := by
  induction a with
  | nil => rfl
  | cons o a ih => cases o <;> simp [delivered, ih]

theorem heldFrom_append (h : List Nat) (a b : List Obs) : heldFrom h (a ++ b) = heldFrom (heldFrom h a) b := by
  induction a generalizing h with
  | nil => rfl
  | cons o a ih => cases o <;> simp [heldFrom, ih]

theorem held_snoc (tr : List Obs) (o : Obs) : held (tr ++ [o]) = heldFrom (held tr) [o] := heldFrom_append [] tr [o]

theorem good_init (n : Nat) : Good n (init n) [] (fun p => decide (p < n)) (fun _ => false) := by
  refine ⟨rfl, quiet_init n, quiet_init_taken n, fun _ _ => rfl, fun p h => (by cases h), ?_, List.nodup_nil, ?_, ?_, by simp⟩
  · intro p hp; left; simpa using hp
  · intro p hp
    rcases hp with h | h <;> cases h
  · have : queue n (fun _ => false) (init n).pages = [] := by simp [queue]
    rw [this]; exact List.Perm.refl _

theorem queue_congr {n : Nat} {fl : Nat → Bool} {a b : Nat → Page} (h : ∀ p, fl p = true → a p = b p) :
    queue n fl a = queue n fl b := by
  unfold queue
  refine List.map_congr_left ?_
  intro p hp
  have := (List.mem_filter.mp hp).2
  simp only [msg, h p this]

theorem good_log {n : Nat} (hn : 0 < n) {l : Logger} {tr : List Obs} {ff fl : Nat → Bool} (g : Good n l tr ff fl) (info : Nat)
    (d : List Nat) (hd : 200 ≤ d.length) :
    ((∀ p, ff p = false) ∧ (process l info d).2 = .lost info (d.take 200) ∧
        Good n (process l info d).1 (tr ++ [.lost info (d.take 200)]) ff fl) ∨
    (∃ h, ff h = true ∧ (∀ p, ff p = true → p ≤ h) ∧ (process l info d).2 = .logged info (d.take 200) ∧
        Good n (process l info d).1 (tr ++ [.logged info (d.take 200)]) (fun p => if p = h then false else ff p)
          (fun p => if p = h then true else fl p) ∧ msg (process l info d).1.pages h = (info, d.take 200) ∧
        ∀ p, p ≠ h → (process l info d).1.pages p = l.pages p) := by
  rcases exists_highest ff n g.free.lt with hz | ⟨h, hf, hmax⟩
  · left
    obtain ⟨h1, h2⟩ := take_none g.free hn hz
    have hg : getPage l = ({ l with free := (take l.free).1 }, none) := by
      unfold getPage; simp only [h1]
    have hp : process l info d = ({ l with free := (take l.free).1 }, .lost info (d.take 200)) := by
      unfold process; simp only [hg, maxSize]
    rw [hp]
    refine ⟨hz, rfl, ⟨g.hn, h2, g.logs, g.d1, ?_, ?_, ?_, ?_, ?_, ?_⟩⟩
    · rw [held_snoc]; exact g.d2
    · rw [held_snoc]; exact g.all
    · rw [held_snoc]; exact g.nod
    · rw [held_snoc]; exact g.ind
    · rw [delivered_append, logged_append]
      simp only [delivered, logged, List.append_nil]
      exact g.per
    · have := g.oob; simp [this]
  · right
    obtain ⟨h1, h2⟩ := take_highest g.free hf hmax
    have hlt : h < n := g.free.lt h hf
    have hfl : fl h = false := g.d1 h hf
    have hnh : h ∉ held tr := fun hh => by have := (g.d2 h hh).1; rw [hf] at this; cases this
    have hg : getPage l = ({ l with free := (take l.free).1, pages := setPage l.pages h { l.pages h with index := h } }, some h) := by
      unfold getPage
      simp only [h1, g.hn, hlt, if_true]
    obtain ⟨pg, hpg⟩ : ∃ pg : Page, pg = { info := info, text := d.take 200, index := h } := ⟨_, rfl⟩
    have hp : process l info d = ({ l with free := (take l.free).1, pages := setPage l.pages h pg, logs := give l.logs h },
        .logged info (d.take 200)) := by
      unfold process
      have : ¬ d.length < 200 := by omega
      simp only [hg, maxSize, this, if_false, addLogEntry]
      have e : (setPage (setPage l.pages h { l.pages h with index := h }) h
          { setPage l.pages h { l.pages h with index := h } h with info := info, text := d.take 200 }) = setPage l.pages h pg := by
        funext i
        by_cases e : i = h
        · subst e; simp [setPage, hpg]
        · simp [setPage, e]
      rw [e]
      simp [setPage, hpg]
    rw [hp]
    have hother : ∀ p, p ≠ h → setPage l.pages h pg p = l.pages p := fun p hp => if_neg hp
    have hself : setPage l.pages h pg h = pg := if_pos rfl
    refine ⟨h, hf, hmax, rfl, ⟨g.hn, h2, give_quiet g.logs hlt hfl, ?_, ?_, ?_, ?_, ?_, ?_, ?_⟩, ?_, hother⟩
    · intro p hp
      by_cases e : p = h
      · rw [if_pos e] at hp; cases hp
      · rw [if_neg e] at hp ⊢; exact g.d1 p hp
    · rw [held_snoc]
      intro p hp
      have hp' : p ∈ held tr := hp
      have hne : p ≠ h := fun e => hnh (e ▸ hp')
      rw [if_neg hne, if_neg hne]
      exact g.d2 p hp'
    · rw [held_snoc]
      intro p hp
      by_cases e : p = h
      · right; left; exact if_pos e
      · rw [if_neg e, if_neg e]; exact g.all p hp
    · rw [held_snoc]; exact g.nod
    · rw [held_snoc]
      intro p hp
      show (setPage l.pages h pg p).index = p
      by_cases e : p = h
      · rw [e, hself, hpg]
      · rw [hother p e]
        rw [if_neg e] at hp
        exact g.ind p hp
    · rw [delivered_append, logged_append]
      simp only [delivered, logged, List.append_nil]
      have hq : (queue n (fun p => if p = h then true else fl p) (setPage l.pages h pg)).Perm
          ((info, d.take 200) :: queue n fl l.pages) := by
        unfold queue
        refine (List.Perm.map _ (filter_add fl h n hlt hfl)).trans ?_
        rw [List.map_cons]
        have e1 : msg (setPage l.pages h pg) h = (info, d.take 200) := by simp only [msg, hself]; rw [hpg]
        rw [e1]
        have e2 := queue_congr (n := n) (fl := fl) (a := setPage l.pages h pg) (b := l.pages) (fun p hp => by
          refine hother p ?_
          intro e
          rw [e, hfl] at hp; cases hp)
        unfold queue at e2
        rw [e2]
      refine (List.Perm.append_left _ hq).trans ?_
      refine List.perm_middle.trans ?_
      exact ((List.Perm.cons _ g.per).trans (List.perm_append_singleton _ _).symm)
    · have := g.oob; simp [this]
    · show msg (setPage l.pages h pg) h = _
      simp only [msg, hself]; rw [hpg]

theorem good_get {n : Nat} (hn : 0 < n) {l : Logger} {tr : List Obs} {ff fl : Nat → Bool} (g : Good n l tr ff fl) :
    ((∀ p, fl p = false) ∧ (getLogEntry l).2 = none ∧ (apply l .get).2 = .empty ∧
        Good n (apply l .get).1 (tr ++ [.empty]) ff fl) ∨
    (∃ h, fl h = true ∧ (∀ p, fl p = true → p ≤ h) ∧ (getLogEntry l).2 = some h ∧
        apply l .get = ((getLogEntry l).1, .got h (msg l.pages h).1 (msg l.pages h).2) ∧ (getLogEntry l).1.pages = l.pages ∧
        Good n (apply l .get).1 (tr ++ [.got h (msg l.pages h).1 (msg l.pages h).2]) ff
          (fun p => if p = h then false else fl p)) := by
  rcases exists_highest fl n g.logs.lt with hz | ⟨h, hf, hmax⟩
  · left
    obtain ⟨h1, h2⟩ := take_none g.logs hn hz
    have hg : getLogEntry l = ({ l with logs := (take l.logs).1 }, none) := by
      unfold getLogEntry; simp only [h1]
    have hp : apply l .get = ({ l with logs := (take l.logs).1 }, .empty) := by
      simp only [apply, hg]
    rw [hp, hg]
    refine ⟨hz, rfl, rfl, ⟨g.hn, g.free, h2, g.d1, ?_, ?_, ?_, ?_, ?_, ?_⟩⟩
    · rw [held_snoc]; exact g.d2
    · rw [held_snoc]; exact g.all
    · rw [held_snoc]; exact g.nod
    · rw [held_snoc]; exact g.ind
    · rw [delivered_append, logged_append]
      simp only [delivered, logged, List.append_nil]
      exact g.per
    · have := g.oob; simp [this]
  · right
    obtain ⟨h1, h2⟩ := take_highest g.logs hf hmax
    have hlt : h < n := g.logs.lt h hf
    have hff : ff h = false := by
      cases e : ff h with
      | false => rfl
      | true => have := g.d1 h e; rw [hf] at this; cases this
    have hnh : h ∉ held tr := fun hh => by have := (g.d2 h hh).2.1; rw [hf] at this; cases this
    have hg : getLogEntry l = ({ l with logs := (take l.logs).1 }, some h) := by
      unfold getLogEntry
      simp only [h1, g.hn, hlt, if_true]
    have hp : apply l .get = ({ l with logs := (take l.logs).1 }, .got h (msg l.pages h).1 (msg l.pages h).2) := by
      simp only [apply, hg]; rfl
    rw [hp, hg]
    refine ⟨h, hf, hmax, rfl, rfl, rfl, ⟨g.hn, g.free, h2, ?_, ?_, ?_, ?_, ?_, ?_, ?_⟩⟩
    · intro p hp
      by_cases e : p = h
      · exact if_pos e
      · rw [if_neg e]; exact g.d1 p hp
    · rw [held_snoc]
      intro p hp
      rcases List.mem_cons.mp hp with rfl | hp
      · exact ⟨hff, if_pos rfl, hlt⟩
      · obtain ⟨a, b, c⟩ := g.d2 p hp
        refine ⟨a, ?_, c⟩
        show (if p = h then false else fl p) = false
        split
        · rfl
        · exact b
    · rw [held_snoc]
      intro p hp
      by_cases e : p = h
      · right; right; rw [e]; exact List.mem_cons_self
      · rcases g.all p hp with h | h | h
        · exact Or.inl h
        · right; left; rw [if_neg e]; exact h
        · right; right; exact List.mem_cons_of_mem _ h
    · rw [held_snoc]; exact List.nodup_cons.mpr ⟨hnh, g.nod⟩
    · rw [held_snoc]
      intro p hp
      rcases hp with hp | hp
      · by_cases e : p = h
        · rw [if_pos e] at hp; cases hp
        · rw [if_neg e] at hp; exact g.ind p (Or.inl hp)
      · rcases List.mem_cons.mp hp with e | hp
        · rw [e]; exact g.ind h (Or.inl hf)
        · exact g.ind p (Or.inr hp)
    · rw [delivered_append, logged_append]
      simp only [delivered, logged, List.append_nil, List.append_assoc, List.singleton_append]
      refine List.Perm.trans (List.Perm.append_left _ ?_) g.per
      have := List.Perm.map (msg l.pages) (filter_del fl h n hlt hf)
      rw [List.map_cons] at this
      exact this.symm
    · have := g.oob; simp [this]

theorem good_ret {n : Nat} {l : Logger} {tr : List Obs} {ff fl : Nat → Bool} (g : Good n l tr ff fl) {p : Nat}
    (hp : p ∈ held tr) :
    Good n (apply l (.ret p)).1 (tr ++ [.back p]) (fun i => if i = p then true else ff i) fl := by
  obtain ⟨h1, h2, h3⟩ := g.d2 p hp
  have hi := g.ind p (Or.inr hp)
  have ha : (apply l (.ret p)).1 = { l with free := give l.free p } := by
    simp only [apply, returnPage, hi]
  rw [ha]
  have hheld : held (tr ++ [.back p]) = (held tr).erase p := held_snoc tr (.back p)
  have hmem : ∀ i, i ∈ held (tr ++ [.back p]) ↔ i ≠ p ∧ i ∈ held tr := by
    intro i; rw [hheld]; exact List.Nodup.mem_erase_iff g.nod
  refine ⟨g.hn, give_quiet g.free h3 h1, g.logs, ?_, ?_, ?_, ?_, ?_, ?_, ?_⟩
  · intro i hi
    by_cases e : i = p
    · rw [e]; exact h2
    · rw [if_neg e] at hi; exact g.d1 i hi
  · intro i hi
    obtain ⟨a, b⟩ := (hmem i).mp hi
    rw [if_neg a]; exact g.d2 i b
  · intro i hi
    by_cases e : i = p
    · exact Or.inl (if_pos e)
    · rcases g.all i hi with h | h | h
      · left; rw [if_neg e]; exact h
      · exact Or.inr (Or.inl h)
      · exact Or.inr (Or.inr ((hmem i).mpr ⟨e, h⟩))
  · rw [hheld]; exact g.nod.erase p
  · intro i hi
    rcases hi with h | h
    · exact g.ind i (Or.inl h)
    · exact g.ind i (Or.inr ((hmem i).mp h).2)
  · rw [delivered_append, logged_append]
    simp only [delivered, logged, List.append_nil]
    exact g.per
  · have := g.oob; simp [this]

theorem calls_append (l : Logger) (a b : List Op) :
    calls l (a ++ b) = ((calls (calls l a).1 b).1, (calls l a).2 ++ (calls (calls l a).1 b).2) := by
  induction a generalizing l with
  | nil => rfl
  | cons o a ih => simp only [List.cons_append, calls, ih]

theorem calls_snoc (l : Logger) (a : List Op) (o : Op) :
    calls l (a ++ [o]) = ((apply (calls l a).1 o).1, (calls l a).2 ++ [(apply (calls l a).1 o).2]) := by
  rw [calls_append]; rfl

theorem good_apply {n : Nat} (hn : 0 < n) {l : Logger} {tr : List Obs} {ff fl : Nat → Bool} (g : Good n l tr ff fl) (o : Op)
    (ha : Allowed tr o) : ∃ ff' fl', Good n (apply l o).1 (tr ++ [(apply l o).2]) ff' fl' := by
  cases o with
  | log info d =>
    rcases good_log hn g info d ha with ⟨-, h1, h2⟩ | ⟨h, -, -, h1, h2, -⟩
    · refine ⟨ff, fl, ?_⟩
      show Good n (process l info d).1 (tr ++ [(process l info d).2]) ff fl
      rw [h1]; exact h2
    · refine ⟨(fun p => if p = h then false else ff p), (fun p => if p = h then true else fl p), ?_⟩
      show Good n (process l info d).1 (tr ++ [(process l info d).2]) _ _
      rw [h1]; exact h2
  | get =>
    rcases good_get hn g with ⟨-, -, h1, h2⟩ | ⟨h, -, -, -, h1, -, h2⟩
    · exact ⟨ff, fl, by rw [h1]; exact h2⟩
    · refine ⟨ff, (fun p => if p = h then false else fl p), ?_⟩
      have : (apply l .get).2 = .got h (msg l.pages h).1 (msg l.pages h).2 := by rw [h1]
      rw [this]; exact h2
  | ret p => exact ⟨_, _, good_ret g ha⟩

theorem good_legal {n : Nat} (hn : 0 < n) {os : List Op} (h : Legal n os) :
    ∃ ff fl, Good n (calls (init n) os).1 (calls (init n) os).2 ff fl := by
  induction h with
  | nil => exact ⟨_, _, good_init n⟩
  | snoc _ ha ih =>
    obtain ⟨ff, fl, g⟩ := ih
    rw [calls_snoc]
    exact good_apply hn g _ ha

/-! ### Numbers -/

theorem count_parts {n : Nat} {l : Logger} {tr : List Obs} {ff fl : Nat → Bool} (g : Good n l tr ff fl) :
    ((List.range n).filter ff).length + (((List.range n).filter fl).length + (held tr).length) = n := by
  have h1 : ∀ m, ((List.range m).filter ff).length + (((List.range m).filter fl).length +
      ((List.range m).filter fun p => decide (p ∈ held tr)).length) = ((List.range m).filter fun p => decide (p < n)).length := by
    intro m
    induction m with
    | zero => rfl
    | succ m ih =>
      rw [List.range_succ]
      simp only [List.filter_append, List.length_append, List.filter_cons, List.filter_nil]
      by_cases hm : m < n
      · rcases g.all m hm with h | h | h
        · have a := g.d1 m h
          have b : m ∉ held tr := fun hh => by have := (g.d2 m hh).1; rw [h] at this; cases this
          simp [h, a, b, hm]; omega
        · have a : ff m = false := by
            cases e : ff m with
            | false => rfl
            | true => have := g.d1 m e; rw [h] at this; cases this
          have b : m ∉ held tr := fun hh => by have := (g.d2 m hh).2.1; rw [h] at this; cases this
          simp [h, a, b, hm]; omega
        · obtain ⟨a, b, -⟩ := g.d2 m h
          simp [h, a, b, hm]; omega
      · have a : ff m = false := by
          cases e : ff m with
          | false => rfl
          | true => exact absurd (g.free.lt m e) hm
        have b : fl m = false := by
          cases e : fl m with
          | false => rfl
          | true => exact absurd (g.logs.lt m e) hm
        have c : m ∉ held tr := fun hh => hm (g.d2 m hh).2.2
        simp [a, b, c, hm]; omega
  have h2 := h1 n
  have h3 : ((List.range n).filter fun p => decide (p < n)).length = n := by
    rw [List.filter_eq_self.mpr (fun p hp => by simpa using hp)]; simp
  have h4 : ((List.range n).filter fun p => decide (p ∈ held tr)).length = (held tr).length := by
    refine List.Perm.length_eq ?_
    rw [List.perm_ext_iff_of_nodup (List.nodup_range.filter _) g.nod]
    intro p
    simp only [List.mem_filter, List.mem_range, decide_eq_true_eq]
    exact ⟨fun h => h.2, fun h => ⟨(g.d2 p h).2.2, h⟩⟩
  omega

theorem pending_eq {n : Nat} {l : Logger} {tr : List Obs} {ff fl : Nat → Bool} (g : Good n l tr ff fl) :
    pending tr = ((List.range n).filter fl).length := by
  have := g.per.length_eq
  simp only [List.length_append, queue, List.length_map] at this
  unfold pending; omega

theorem filter_length_zero {n : Nat} {f : Nat → Bool} (hlt : ∀ p, f p = true → p < n) :
    ((List.range n).filter f).length = 0 ↔ ∀ p, f p = false := by
  rw [List.length_eq_zero_iff, List.filter_eq_nil_iff]
  constructor
  · intro h p
    cases e : f p with
    | false => rfl
    | true => exact absurd e (h p (List.mem_range.mpr (hlt p e)))
  · intro h p _; rw [h p]; simp

end Verif.Logger
