import Verif.Proof.RuntimeEvaluator8
import Verif.Model.RuntimeLibrary

namespace Verif.Rt
open Verif.Rpn

/-- A boolean version of `Fn.Ok` for the registrations. -/
def Entry.good (e : Entry) : Bool :=
  match e.kind with
  | .read => e.name == "READ" && e.nIn == 0 && e.nOut == 1 && e.types.length == 1 && decide ((e.types.headD .void).words ≤ 2)
  | .rread => e.name == "RREAD" && e.nIn == 0 && e.nOut == 1 && e.types.length == 1 && decide ((e.types.headD .void).words ≤ 2)
  | .same => e.name == "WRITE" && e.nIn == 1 && e.nOut == 0 && e.types.length == 2 && (e.types.getD 1 .void).numeric &&
      decide ((e.types.getD 1 .void).words ≤ 2) && decide (e.types.headD .void = e.types.getD 1 .void)
  | .rsame => e.name == "RWRITE" && e.nIn == 1 && e.nOut == 0 && e.types.length == 2 && (e.types.getD 1 .void).numeric &&
      decide ((e.types.getD 1 .void).words ≤ 2) && decide (e.types.headD .void = e.types.getD 1 .void)
  | .write => e.name == "WRITE" && e.nIn == 1 && e.nOut == 0 && e.types.length == 2 && (e.types.getD 1 .void).numeric &&
      decide ((e.types.getD 1 .void).words ≤ 2)
  | .rwrite => e.name == "RWRITE" && e.nIn == 1 && e.nOut == 0 && e.types.length == 2 && (e.types.getD 1 .void).numeric &&
      decide ((e.types.getD 1 .void).words ≤ 2)
  | .op | .skip => e.name != "READ" && e.name != "WRITE" && e.name != "RREAD" && e.name != "RWRITE" &&
      decide (e.nIn + e.nOut ≤ e.types.length) &&
      decide ((((e.types.drop e.nIn).take e.nOut).map Ty.words).sum ≤ 2)

theorem table_good : table.all Entry.good = true := by decide +kernel

theorem len1 {α} [Inhabited α] {l : List α} (h : l.length = 1) (d : α) : l = [l.headD d] := by
  match l, h with
  | [x], _ => rfl
theorem len2 {α} {l : List α} (h : l.length = 2) (d : α) : l = [l.headD d, l.getD 1 d] := by
  match l, h with
  | [x, y], _ => rfl

instance : Inhabited Ty := ⟨.void⟩

theorem entry_ok {A : Arith} (hA : A.Ok) {e : Entry} (h : e.good = true) : (e.fn A).Ok := by
  unfold Entry.good at h
  unfold Fn.Ok Entry.fn
  cases hk : e.kind
  · simp only [hk, Bool.and_eq_true, beq_iff_eq, decide_eq_true_eq] at h ⊢
    obtain ⟨⟨⟨⟨a, b⟩, c⟩, d⟩, f⟩ := h
    exact ⟨a, b, c, _, len1 d .void, f⟩
  · simp only [hk, Bool.and_eq_true, beq_iff_eq, decide_eq_true_eq] at h ⊢
    obtain ⟨⟨⟨⟨a, b⟩, c⟩, d⟩, f⟩ := h
    exact ⟨a, b, c, _, len1 d .void, f⟩
  · simp only [hk, Bool.and_eq_true, beq_iff_eq, decide_eq_true_eq] at h ⊢
    obtain ⟨⟨⟨⟨⟨a, b⟩, c⟩, d⟩, f⟩, g⟩ := h
    exact ⟨a, b, c, _, _, len2 d .void, f, g, fun v hv => hA.1 _ _ v hv⟩
  · simp only [hk, Bool.and_eq_true, beq_iff_eq, decide_eq_true_eq] at h ⊢
    obtain ⟨⟨⟨⟨⟨a, b⟩, c⟩, d⟩, f⟩, g⟩ := h
    exact ⟨a, b, c, _, _, len2 d .void, f, g, fun v hv => hA.1 _ _ v hv⟩
  · simp only [hk, Bool.and_eq_true, beq_iff_eq, decide_eq_true_eq] at h ⊢
    obtain ⟨⟨⟨⟨⟨⟨a, b⟩, c⟩, d⟩, f⟩, g⟩, i⟩ := h
    exact ⟨a, b, c, _, _, len2 d .void, f, g, fun v hv => by rw [hv, i]⟩
  · simp only [hk, Bool.and_eq_true, beq_iff_eq, decide_eq_true_eq] at h ⊢
    obtain ⟨⟨⟨⟨⟨⟨a, b⟩, c⟩, d⟩, f⟩, g⟩, i⟩ := h
    exact ⟨a, b, c, _, _, len2 d .void, f, g, fun v hv => by rw [hv, i]⟩
  · simp only [hk, Bool.and_eq_true, bne_iff_ne, ne_eq, decide_eq_true_eq] at h ⊢
    obtain ⟨⟨⟨⟨⟨a, b⟩, c⟩, d⟩, f⟩, g⟩ := h
    exact ⟨a, b, c, d, f, g, fun vs hv => hA.2 _ _ _ vs hv⟩
  · simp only [hk, Bool.and_eq_true, bne_iff_ne, ne_eq, decide_eq_true_eq] at h ⊢
    obtain ⟨⟨⟨⟨⟨a, b⟩, c⟩, d⟩, f⟩, g⟩ := h
    exact ⟨a, b, c, d, f, g, fun vs hv => hA.2 _ _ _ vs hv⟩

theorem builtin_ok {A : Arith} (hA : A.Ok) : ∀ r ∈ builtin A, r.Ok := by
  intro r hr
  obtain ⟨e, he, rfl⟩ := List.mem_map.1 hr
  exact entry_ok hA (List.all_eq_true.1 table_good e he)

/-- From a prepared evaluator to the context of the compilation. -/
theorem compile_ctx {lib : List Fn} (hlib : ∀ r ∈ lib, r.Ok) {N : Names} (hN : N.Ok) {lines : List (List String)}
    (hlen : lines.length ≤ 32767) {e : Ev} (he : FreshEv N e lines) {ins outs0 : List Var} {B L : Nat}
    (h1 : placeIns e.ins e.startVar = (true, ins, B)) (h2 : placeOuts e.outs B = (true, outs0, L)) :
    Ctx lib N ins outs0 e.startVar B L ∧ SameVars e.ins ins ∧ SameVars e.outs outs0 := by
  have hb := he.bound
  obtain ⟨a1, a2, a3, a4⟩ := placeIns_spec e.ins e.startVar ins B
    (fun v hv => ⟨(he.ins.new v hv).1, (he.ins.new v hv).2.2⟩) (by omega) h1
  obtain ⟨b1, b2, b3, b4⟩ := placeOuts_spec e.outs B outs0 L (fun v hv => (he.outs.new v hv).2.2) (by omega) h2
  refine ⟨⟨hlib, hN, a1, b1, by omega, ?_, ?_, a4, b4, ?_⟩, a3, b3⟩
  · rw [a3.names]; exact he.ins.nodup
  · rw [b3.names]; exact he.outs.nodup
  · intro v hv
    obtain ⟨u, hu, e⟩ := b3.mem v hv
    rw [e]; exact (he.outs.new u hu).2.1

/-- The state of the compiler before the first line. -/
def c0 (junk : Nat → Word) (outs0 : List Var) (L : Nat) : C :=
  { ts := [], dss := 0, maxDss := 0, nextConst := 0, code := [], outs := outs0, data := (List.range L).map junk }

theorem ci0 {N : Names} {lines : List (List String)} (hlen : lines.length ≤ 32767) {e : Ev} (he : FreshEv N e lines)
    (junk : Nat → Word) (outs0 : List Var) (L : Nat) :
    CI N outs0 e.startVar L (fun _ => none) (c0 junk outs0 L) lines where
  dss := rfl
  depth := by show 0 + _ ≤ _; omega
  consts := by show 0 + _ ≤ _; rw [he.start]; omega
  len := by simp [c0]
  outs := by
    show outs0 = _
    have : ∀ v ∈ outs0, upd (fun _ => none) v = v := fun v _ => rfl
    rw [List.map_congr_left this]; simp
  types := by intro v _ t ht; cases ht
  maxd := Nat.le_refl _

/-- What a successful compilation leaves. -/
theorem compile_inv {lib : List Fn} {N : Names} {junk : Nat → Word} {e ev : Ev} {lines : List (List String)}
    (h : compile lib N junk e lines = .ok (true, ev)) :
    ∃ ins outs0 B L cE, placeIns e.ins e.startVar = (true, ins, B) ∧ placeOuts e.outs B = (true, outs0, L) ∧
      compLines lib N ins (c0 junk outs0 L) lines = .ok cE ∧ cE.ts = [] ∧ ev.ins = ins ∧ ev.outs = cE.outs ∧
      ev.data = cE.data ∧ ev.code = cE.code ∧ ev.stackSize = cE.maxDss := by
  unfold compile at h
  rcases hp : placeIns e.ins e.startVar with ⟨b1, ins, B⟩
  simp only [hp] at h
  cases b1
  · simp only [Bool.not_false, if_true, R.ok.injEq, Prod.mk.injEq] at h; cases h.1
  · rcases hq : placeOuts e.outs B with ⟨b2, outs0, L⟩
    simp only [hq, Bool.not_true, Bool.false_eq_true, if_false] at h
    cases b2
    · simp only [Bool.not_false, if_true, R.ok.injEq, Prod.mk.injEq] at h; cases h.1
    · simp only [Bool.not_true, Bool.false_eq_true, if_false] at h
      cases hc : compLines lib N ins (c0 junk outs0 L) lines with
      | crash => unfold c0 at hc; rw [hc] at h; cases h
      | error => unfold c0 at hc; rw [hc] at h; simp only [R.ok.injEq, Prod.mk.injEq] at h; cases h.1
      | ok cE =>
        have hc' := hc
        unfold c0 at hc
        rw [hc] at h
        simp only [R.ok.injEq, Prod.mk.injEq, List.isEmpty_iff] at h
        obtain ⟨h1, h2⟩ := h
        exact ⟨ins, outs0, B, L, cE, rfl, hq, hc', h1, by rw [← h2], by rw [← h2], by rw [← h2], by rw [← h2], by rw [← h2]⟩

theorem compile_nocrash {lib : List Fn} (hlib : ∀ r ∈ lib, r.Ok) {N : Names} (hN : N.Ok) {lines : List (List String)}
    (hlen : lines.length ≤ 32767) {e : Ev} (he : FreshEv N e lines) (junk : Nat → Word) :
    compile lib N junk e lines ≠ .crash := by
  unfold compile
  rcases hp : placeIns e.ins e.startVar with ⟨b1, ins, B⟩
  simp only
  cases b1
  · simp
  · rcases hq : placeOuts e.outs B with ⟨b2, outs0, L⟩
    simp only [Bool.not_true, Bool.false_eq_true, if_false]
    cases b2
    · simp
    · simp only [Bool.not_true, Bool.false_eq_true, if_false]
      obtain ⟨ctx, _, _⟩ := compile_ctx hlib hN hlen he hp hq
      have := (lines_ci ctx lines (ci0 hlen he junk outs0 L)).1
      unfold c0 at this
      split
      · simp
      · simp
      · rename_i hcr; exact absurd hcr this

end Verif.Rt
