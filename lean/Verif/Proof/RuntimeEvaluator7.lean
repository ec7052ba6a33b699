import Verif.Proof.RuntimeEvaluator6

namespace Verif.Rt
open Verif.Rpn

theorem finish_code {lib : List Fn} {c c1 : C} {cmd : String} {b : Bool} {code2 : Option Nat}
    (h : finish lib c cmd b code2 = .ok c1) :
    c.code.length + 1 ≤ c1.code.length ∧ c1.code.length ≤ c.code.length + 2 := by
  unfold finish at h
  split at h
  · cases h
  · simp only [R.ok.injEq] at h
    subst h
    cases code2 with
    | none => simp [operand]
    | some a => by_cases ha : a = noLoc <;> simp [operand, ha]

theorem line_code {lib : List Fn} {N : Names} {ins : List Var} {c c1 : C} {l : List String}
    (h : compLine lib N ins c l = .ok c1) : (l = [] ∧ c1 = c) ∨
    (c.code.length + 1 ≤ c1.code.length ∧ c1.code.length ≤ c.code.length + 2) := by
  cases l with
  | nil => simp only [compLine, R.ok.injEq] at h; exact .inl ⟨rfl, h.symm⟩
  | cons cmd ps =>
    right
    simp only [compLine, compWrite, compRead, compConst] at h
    repeat' split at h
    all_goals first
      | cases h; done
      | (have hx := finish_code h; exact hx)

theorem lines_code {lib : List Fn} {N : Names} {ins : List Var} : ∀ (ls : List (List String)) {c c1 : C},
    compLines lib N ins c ls = .ok c1 → c1.code.length ≤ c.code.length + 2 * ls.length
  | [], c, c1, h => by simp only [compLines, R.ok.injEq] at h; subst h; simp
  | l :: ls, c, c1, h => by
    simp only [compLines] at h
    cases hl : compLine lib N ins c l with
    | crash => simp only [hl] at h; cases h
    | error => simp only [hl] at h; cases h
    | ok c2 =>
      simp only [hl] at h
      have := lines_code ls h
      simp only [List.length_cons]
      rcases line_code hl with ⟨_, rfl⟩ | hx <;> omega

theorem run_cons {safe : Bool} {lib N inD outD} {s : St} {l : List String} {ls : List (List String)}
    (h : ¬ (safe && s.err) = true) : run safe lib N inD outD s (l :: ls) =
      (step lib N inD outD s l).bind fun s' => run safe lib N inD outD s' ls := by
  simp only [run, if_neg h]
  cases step lib N inD outD s l <;> rfl

theorem loop_stop (safe : Bool) (lib : List Fn) (code : List Nat) (fuel : Nat) (m : M)
    (h : ¬ (m.pc < code.length ∧ (!(safe && m.err)) = true)) : loop safe lib code fuel m = some m := by
  cases fuel <;> simp only [loop, if_neg h]

theorem loop_step {safe : Bool} {lib : List Fn} {code : List Nat} {fuel : Nat} {m m1 : M} {i : Nat} {r : Fn}
    (h1 : code[m.pc]? = some i) (h2 : lib[i]? = some r) (h3 : exec code r { m with pc := m.pc + 1 } = some m1)
    (hs : ¬ (safe && m.err) = true) (hsp : m1.sp ≤ m1.stack.length) :
    loop safe lib code (fuel + 1) m = loop safe lib code fuel m1 := by
  have hpc : m.pc < code.length := (List.getElem?_eq_some_iff.1 h1).1
  have hgo : m.pc < code.length ∧ (!(safe && m.err)) = true := ⟨hpc, by cases hh : (safe && m.err) <;> simp_all⟩
  simp only [loop, if_pos hgo, fetch, h1, h2, h3]
  congr 1
  cases safe
  · rfl
  · have : decide (m1.sp > m1.stack.length) = false := by simp; omega
    simp [this]

theorem pop_pc {m m1 : M} {n : Nat} {v : Val} (h : pop m n = some (v, m1)) : m1.pc = m.pc := by
  unfold pop at h
  split at h
  · split at h
    · simp only [Option.some.injEq, Prod.mk.injEq] at h; rw [← h.2]
    · cases h
  · cases h

theorem push_pc {m m1 : M} {v : Val} (h : push m v = some m1) : m1.pc = m.pc := by
  unfold push at h
  split at h
  · simp only [Option.some.injEq] at h; rw [← h]
  · cases h

theorem popAll_pc : ∀ (ns : List Nat) {m m1 : M} {vs : List Val}, popAll m ns = some (vs, m1) → m1.pc = m.pc
  | [], m, m1, vs, h => by simp only [popAll, Option.some.injEq, Prod.mk.injEq] at h; rw [h.2]
  | n :: ns, m, m1, vs, h => by
    simp only [popAll] at h
    split at h
    · cases h
    · rename_i hp
      split at h
      · cases h
      · rename_i hq
        simp only [Option.some.injEq, Prod.mk.injEq] at h
        rw [← h.2, popAll_pc ns hq, pop_pc hp]

theorem pushAll_pc : ∀ (vs : List Val) {m m1 : M}, pushAll m vs = some m1 → m1.pc = m.pc
  | [], m, m1, h => by simp only [pushAll, Option.some.injEq] at h; rw [h]
  | v :: vs, m, m1, h => by
    simp only [pushAll] at h
    split at h
    · cases h
    · rename_i hp
      rw [pushAll_pc vs h, push_pc hp]

theorem fetch_pc {code : List Nat} {m m1 : M} {a : Nat} (h : fetch code m = some (a, m1)) : m1.pc = m.pc + 1 := by
  unfold fetch at h
  split at h
  · simp only [Option.some.injEq, Prod.mk.injEq] at h; rw [← h.2]
  · cases h

theorem exec_pc {code : List Nat} {r : Fn} {m m1 : M} (h : exec code r m = some m1) : m.pc ≤ m1.pc := by
  unfold exec at h
  split at h
  · split at h
    · cases h
    · rename_i hf
      split at h
      · cases h
      · have := fetch_pc hf; have := push_pc h; omega
  · split at h
    · cases h
    · rename_i hf
      split at h
      · cases h
      · have := fetch_pc hf; have := push_pc h; omega
  · split at h
    · cases h
    · rename_i hf
      split at h
      · cases h
      · rename_i hp
        split at h
        · cases h
        · simp only [Option.some.injEq] at h
          have := fetch_pc hf; have := pop_pc hp
          rw [← h]; show _ ≤ M.pc _; simp only; omega
  · split at h
    · cases h
    · rename_i hf
      split at h
      · cases h
      · rename_i hp
        split at h
        · cases h
        · simp only [Option.some.injEq] at h
          have := fetch_pc hf; have := pop_pc hp
          rw [← h]; show _ ≤ M.pc _; simp only; omega
  · split at h
    · simp only [Option.some.injEq] at h; rw [h]; exact Nat.le_refl _
    · split at h
      · cases h
      · rename_i hp
        split at h
        · cases h
        · rename_i hq
          simp only [Option.some.injEq] at h
          have := popAll_pc _ hp; have := pushAll_pc _ hq
          rw [← h]; show _ ≤ M.pc _; simp only; omega

/-- The whole program. -/
theorem loop_sim {lib N ins outs0 S B L} (h : Ctx lib N ins outs0 S B L) {D : List Word} {cE : C}
    {inD outD : String → Option Decl} (hiD : ∀ n, inD n = (find ins n).map decl)
    (hoD : ∀ n, outD n = (find outs0 n).map decl) (hD : D = cE.data) {safe : Bool} :
    ∀ (ls : List (List String)) {c : C} {s s' : St} {m : M} {fuel : Nat},
    Rel ins outs0 D c s m → CI N outs0 S L s.written c ls → compLines lib N ins c ls = .ok cE →
    cE.maxDss ≤ m.stack.length → cE.code.length ≤ m.pc + fuel → (∀ l ∈ ls, NoRemote l) →
    run safe lib N inD outD s ls = some s' →
    ∃ m' ck, loop safe lib cE.code fuel m = some m' ∧ Rel ins outs0 D ck s' m' ∧
      ((safe && s'.err) = false → ck = cE ∧ m'.pc = cE.code.length) ∧ m'.stack.length = m.stack.length
  | [], c, s, s', m, fuel, hR, hc, hl, hmax, hf, hn, hrun => by
    simp only [compLines, R.ok.injEq] at hl
    simp only [run, Option.some.injEq] at hrun
    subst hl hrun
    refine ⟨m, c, loop_stop _ _ _ _ _ ?_, hR, fun _ => ⟨rfl, hR.pc⟩, rfl⟩
    rw [hR.pc]; omega
  | l :: ls, c, s, s', m, fuel, hR, hc, hl, hmax, hf, hn, hrun => by
    by_cases hs : (safe && s.err) = true
    · simp only [run, if_pos hs, Option.some.injEq] at hrun
      subst hrun
      refine ⟨m, c, loop_stop _ _ _ _ _ ?_, hR, ?_, rfl⟩
      · rw [hR.err, hs]; simp
      · intro hh; rw [hs] at hh; cases hh
    · rw [run_cons hs] at hrun
      cases hst : step lib N inD outD s l with
      | none => rw [hst] at hrun; cases hrun
      | some s1 =>
        rw [hst] at hrun
        simp only [Option.bind_some] at hrun
        simp only [compLines] at hl
        cases hcl : compLine lib N ins c l with
        | crash => simp only [hcl] at hl; cases hl
        | error => simp only [hcl] at hl; cases hl
        | ok c1 =>
          simp only [hcl] at hl
          obtain ⟨w1, ci1, _, _, _, _⟩ := (line_ci h hc).2 c1 hcl
          obtain ⟨w2, ci2, k2, k3, k4, y, k5⟩ := (lines_ci h ls ci1).2 cE hl
          rcases line_sim h hiD hoD hR hc hcl (by rw [hD]; exact k2) k5 (by omega) (hn l (by simp)) hst with ⟨rfl, rfl⟩ | hsim
          · exact loop_sim h hiD hoD hD ls hR (ci_written h ci1 hR.outs) hl hmax hf
              (fun x hx => hn x (List.mem_cons_of_mem _ hx)) hrun
          · obtain ⟨i, r, m1, a1, a2, a3, a4, a5⟩ := hsim
            have hpc : m.pc < cE.code.length := (List.getElem?_eq_some_iff.1 a1).1
            have hgrow : c.code.length + 1 ≤ c1.code.length := by
              rcases line_code hcl with ⟨rfl, rfl⟩ | hx
              · -- an empty line executes nothing
                exfalso
                have e1 := a4.pc
                have e2 := hR.pc
                have : m1.pc ≥ m.pc + 1 := by
                  have := exec_pc a3
                  simpa using this
                omega
              · exact hx.1
            obtain ⟨g, rfl⟩ : ∃ g, fuel = g + 1 := ⟨fuel - 1, by omega⟩
            have hsp : m1.sp ≤ m1.stack.length := by
              have := a4.holds.1
              rw [flat_length a4.sized, a4.types] at this
              have := ci1.maxd
              omega
            rw [loop_step a1 a2 a3 (by rw [hR.err]; exact hs) hsp]
            obtain ⟨m', ck, b1, b2, b3, b4⟩ := loop_sim h hiD hoD hD ls (fuel := g) a4 (ci_written h ci1 a4.outs) hl (by omega)
              (by rw [a4.pc]; rw [hR.pc] at hf; omega) (fun x hx => hn x (List.mem_cons_of_mem _ hx)) hrun
            exact ⟨m', ck, b1, b2, b3, b4.trans a5⟩

end Verif.Rt
