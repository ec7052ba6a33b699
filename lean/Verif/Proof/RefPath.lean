import Verif.Model.RefPath
import Verif.Spec.RefPath
import Verif.Props.RefSearch
set_option maxRecDepth 8000
set_option linter.unusedSimpArgs false
set_option linter.unusedVariables false
namespace Verif.RefC
open Verif.Spec.RefPath
open Verif.Spec.RefC (At follow sizeObjs preorders UniqueNames Below)

theorem rename_named (o : Obj) (w : List Char) : o.rename w = named o w := by cases o <;> rfl

theorem tokenize_word (w r : List Char) (h : '.' ∉ w) : tokenize (w ++ '.' :: r) = (w, r) := by
  induction w with
  | nil => rfl
  | cons c w ih =>
    simp only [List.mem_cons, not_or] at h
    simp only [List.cons_append, tokenize]
    rw [if_neg (fun e => h.1 e.symm), ih h.2]

/-- The token and the rest of a path. -/
def rest : List (List Char) → List Char
  | [] => []
  | _ :: ws => joinPath ws

theorem tokenize_path (ws : List (List Char)) (h : ∀ w ∈ ws, w ≠ [] ∧ '.' ∉ w) :
    tokenize (joinPath ws) = (ws.headD [], rest ws) := by
  match ws with
  | [] => rfl
  | [w] => exact tokenize_last w (h w (by simp)).2
  | w :: v :: ws => exact tokenize_word w _ (h w (by simp)).2

/-- What the loop gives, in the words of the specification. -/
def outcome (kids : List Obj) : Option (List Obj) → Bool × Bool × List Obj → Prop
  | some k, r => r = (true, true, k)
  | none, r => (r.1 && r.2.1) = false ∧ r.2.2 = kids

theorem findIdx_skip (w : List Char) (o : Obj) (kids : List Obj) (h : o.name ≠ some w) :
    (o :: kids).findIdx? (fun x => x.name == some w) = (kids.findIdx? (fun x => x.name == some w)).map (· + 1) := by
  rw [List.findIdx?_cons]
  have : (o.name == some w) = false := by simpa using h
  rw [this]
  rfl

/-- A child of another name in front changes nothing. -/
theorem loop_skip (fuel : Nat) (w t : List Char) (ref : Obj) (fresh : Nat) (o : Obj) (kids : List Obj) (hw : w ≠ [])
    (h : o.name ≠ some w) :
    insertLoop (fuel + 1) w t ref fresh (o :: kids) =
      (insertLoop (fuel + 1) w t ref fresh kids).map fun r => (r.1, r.2.1, o :: r.2.2) := by
  rw [insertLoop, insertLoop]
  simp only [hw, if_false]
  rw [findIdx_skip w o kids h]
  cases hi : kids.findIdx? (fun x => x.name == some w) with
  | none =>
    simp only [Option.map_none]
    split
    · rfl
    · simp only [Option.map_map]; rfl
  | some i =>
    simp only [Option.map_some, List.getElem?_cons_succ]
    cases hk : (kids[i]?).bind Obj.kids? with
    | none => rfl
    | some ck =>
      simp only [Option.map_map]
      congr 1
      funext r
      simp only [Function.comp]
      cases hg : kids[i]? with
      | none => rfl
      | some c => rfl

theorem insert_loop (ref : Obj) (ws : List (List Char)) : ∀ (h : ∀ w ∈ ws, w ≠ [] ∧ '.' ∉ w) (fuel fresh : Nat) (kids : List Obj),
    ws.length < fuel →
    ∃ r, insertLoop fuel (ws.headD []) (rest ws) ref fresh kids = some r ∧ outcome kids (place ref fresh ws kids) r := by
  induction ws with
  | nil =>
    intro _ fuel fresh kids hf
    obtain ⟨fuel, rfl⟩ : ∃ m, fuel = m + 1 := ⟨fuel - 1, by simp at hf; omega⟩
    exact ⟨(true, false, kids), rfl, by simp [outcome, place]⟩
  | cons w ws ih =>
    intro h fuel fresh kids hf
    obtain ⟨fuel, rfl⟩ : ∃ m, fuel = m + 1 := ⟨fuel - 1, by simp at hf; omega⟩
    simp only [List.length_cons, Nat.add_lt_add_iff_right] at hf
    have hw := (h w (by simp)).1
    have hws : ∀ v ∈ ws, v ≠ [] ∧ '.' ∉ v := fun v hv => h v (by simp [hv])
    simp only [List.headD_cons, rest]
    have ht := tokenize_path ws hws
    induction kids with
    | nil =>
      rw [insertLoop]
      simp only [hw, if_false, List.findIdx?_nil, ht]
      match ws with
      | [] => exact ⟨_, rfl, by simp [outcome, place, nest, rename_named]⟩
      | v :: ws =>
        have hv := (hws v (by simp)).1
        obtain ⟨r, h1, h2⟩ := ih hws fuel (fresh + 1) [] hf
        simp only [List.headD_cons] at h1 ⊢
        simp only [hv, if_false, h1, Option.map_some]
        refine ⟨_, rfl, ?_⟩
        simp only [place, outcome, nest] at h2 ⊢
        simp [h2]
    | cons o kids ihk =>
      by_cases hn : o.name = some w
      · -- the first child has the name
        have hidx : (o :: kids).findIdx? (fun x => x.name == some w) = some 0 := by
          rw [List.findIdx?_cons]; simp [hn]
        rw [insertLoop]
        simp only [hw, if_false, hidx, ht, List.getElem?_cons_zero, Option.bind_some]
        match o, hn with
        | .leaf i n, hn =>
          simp only [Obj.kids?]
          exact ⟨_, rfl, by simp only [Obj.name] at hn; simp [outcome, place, hn]⟩
        | .cont i n k, hn =>
          simp only [Obj.name] at hn
          simp only [Obj.kids?]
          obtain ⟨r, h1, h2⟩ := ih hws fuel fresh k hf
          rw [h1]
          refine ⟨_, rfl, ?_⟩
          simp only [place, hn, if_true, Option.map_some, List.set_cons_zero, Obj.withKids]
          cases hp : place ref fresh ws k with
          | none =>
            rw [hp] at h2
            simp only [outcome, Option.map_none] at h2 ⊢
            exact ⟨h2.1, by rw [h2.2]⟩
          | some k' =>
            rw [hp] at h2
            simp only [outcome, Option.map_some] at h2 ⊢
            rw [h2]
      · rw [loop_skip fuel w _ ref fresh o kids hw hn]
        obtain ⟨r, h1, h2⟩ := ihk
        rw [h1]
        refine ⟨_, rfl, ?_⟩
        have hp : place ref fresh (w :: ws) (o :: kids) = (place ref fresh (w :: ws) kids).map (o :: ·) := by
          cases o with
          | leaf i n => simp only [Obj.name] at hn; simp [place, hn]
          | cont i n k => simp only [Obj.name] at hn; simp [place, hn]
        rw [hp]
        cases hq : place ref fresh (w :: ws) kids with
        | none =>
          rw [hq] at h2
          simp only [outcome, Option.map_none] at h2 ⊢
          exact ⟨h2.1, by rw [h2.2]⟩
        | some k' =>
          rw [hq] at h2
          simp only [outcome, Option.map_some] at h2 ⊢
          rw [h2]

/-! ## What the specification gives -/

theorem named_name (o : Obj) (w : List Char) : (named o w).name = some w := by cases o <;> rfl

theorem nest_cons (o : Obj) (fresh : Nat) (w : List Char) (ws : List (List Char)) (h : ws ≠ []) :
    nest o fresh (w :: ws) = [.cont fresh (some w) (nest o (fresh + 1) ws)] := by
  cases ws with
  | nil => exact absurd rfl h
  | cons v ws => rfl

theorem follow_nest (o : Obj) (ws : List (List Char)) : ∀ (fresh : Nat), ws ≠ [] →
    follow (nest o fresh ws) ws = some (named o (ws.getLastD [])) := by
  induction ws with
  | nil => intro _ h; exact absurd rfl h
  | cons w ws ih =>
    intro fresh _
    by_cases h : ws = []
    · subst h
      simp [nest, follow, named_name]
    · rw [nest_cons o fresh w ws h, follow_cons h]
      have := ih (fresh + 1) h
      obtain ⟨v, vs, rfl⟩ : ∃ v vs, ws = v :: vs := by
        cases ws with
        | nil => exact absurd rfl h
        | cons v vs => exact ⟨v, vs, rfl⟩
      simp only [Obj.name, Obj.kids?, List.find?_cons, beq_self_eq_true, Option.isSome_some, Bool.and_self, Option.bind_some, this]
      simp [List.getLastD_cons]

theorem place_skip (o : Obj) (fresh : Nat) (w : List Char) (ws : List (List Char)) (c : Obj) (kids : List Obj)
    (h : c.name ≠ some w) : place o fresh (w :: ws) (c :: kids) = (place o fresh (w :: ws) kids).map (c :: ·) := by
  cases c with
  | leaf i n => simp only [Obj.name] at h; simp [place, h]
  | cont i n k => simp only [Obj.name] at h; simp [place, h]

theorem follow_skip (w : List Char) (ws : List (List Char)) (c : Obj) (kids : List Obj) (h : c.name ≠ some w) :
    follow (c :: kids) (w :: ws) = follow kids (w :: ws) := by
  have hb : (c.name == some w) = false := by simpa using h
  by_cases hn : ws = []
  · subst hn; simp [follow, List.find?_cons, hb]
  · rw [follow_cons hn, follow_cons hn, List.find?_cons]; simp [hb]

theorem follow_place (o : Obj) (ws : List (List Char)) : ∀ (fresh : Nat) (kids kids' : List Obj), ws ≠ [] →
    place o fresh ws kids = some kids' → follow kids' ws = some (named o (ws.getLastD [])) := by
  induction ws with
  | nil => intro _ _ _ h; exact absurd rfl h
  | cons w ws ih =>
    intro fresh kids
    induction kids with
    | nil =>
      intro kids' _ hp
      simp only [place, Option.some.injEq] at hp
      subst hp
      exact follow_nest o (w :: ws) fresh (by simp)
    | cons c kids ihk =>
      intro kids' _ hp
      by_cases hc : c.name = some w
      · cases c with
        | leaf i n => simp only [Obj.name] at hc; simp [place, hc] at hp
        | cont i n k =>
          simp only [Obj.name] at hc
          simp only [place, hc, if_true, Option.map_eq_some_iff] at hp
          obtain ⟨k', h1, rfl⟩ := hp
          have hne : ws ≠ [] := by rintro rfl; simp [place] at h1
          have h2 := ih fresh k k' hne h1
          rw [follow_cons hne]
          obtain ⟨v, vs, rfl⟩ : ∃ v vs, ws = v :: vs := by
            cases ws with
            | nil => exact absurd rfl hne
            | cons v vs => exact ⟨v, vs, rfl⟩
          simp only [Obj.name, Obj.kids?, List.find?_cons, beq_self_eq_true, Option.isSome_some, Bool.and_self,
            Option.bind_some, h2]
          simp [List.getLastD_cons]
      · rw [place_skip o fresh w ws c kids hc] at hp
        obtain ⟨k', h1, rfl⟩ := Option.map_eq_some_iff.1 hp
        rw [follow_skip w ws c k' hc]
        exact ihk k' (by simp) h1

/-- The children before are there after. -/
theorem place_mem (o : Obj) (fresh : Nat) (w : List Char) (ws : List (List Char)) (kids : List Obj) : ∀ kids',
    place o fresh (w :: ws) kids = some kids' →
    ∀ c ∈ kids, ∃ c' ∈ kids', c'.name = c.name ∧ c'.id = c.id ∧
      (c' = c ∨ ∃ ck ck', c.kids? = some ck ∧ c'.kids? = some ck' ∧ place o fresh ws ck = some ck') := by
  induction kids with
  | nil => intro _ _ c hc; simp at hc
  | cons d kids ih =>
    intro kids' hp c hc
    by_cases hd : d.name = some w
    · cases d with
      | leaf i n => simp only [Obj.name] at hd; simp [place, hd] at hp
      | cont i n k =>
        simp only [Obj.name] at hd
        simp only [place, hd, if_true, Option.map_eq_some_iff] at hp
        obtain ⟨k', h1, rfl⟩ := hp
        rcases List.mem_cons.1 hc with rfl | hc
        · exact ⟨_, List.mem_cons_self, hd.symm, rfl, Or.inr ⟨k, k', rfl, rfl, h1⟩⟩
        · exact ⟨c, List.mem_cons_of_mem _ hc, rfl, rfl, Or.inl rfl⟩
    · rw [place_skip o fresh w ws d kids hd] at hp
      obtain ⟨k', h1, rfl⟩ := Option.map_eq_some_iff.1 hp
      rcases List.mem_cons.1 hc with rfl | hc
      · exact ⟨c, List.mem_cons_self, rfl, rfl, Or.inl rfl⟩
      · obtain ⟨c', h2, h3⟩ := ih k' h1 c hc
        exact ⟨c', List.mem_cons_of_mem _ h2, h3⟩

/-- The children after were there before, or are new. -/
theorem place_mem' (o : Obj) (fresh : Nat) (w : List Char) (ws : List (List Char)) (kids : List Obj) : ∀ kids',
    place o fresh (w :: ws) kids = some kids' →
    ∀ c' ∈ kids', (c' ∈ nest o fresh (w :: ws)) ∨ ∃ c ∈ kids, c'.name = c.name ∧ c'.id = c.id ∧
      (c' = c ∨ c.name = some w ∧
        ∃ ck ck', c.kids? = some ck ∧ c'.kids? = some ck' ∧ place o fresh ws ck = some ck') := by
  induction kids with
  | nil =>
    intro kids' hp c hc
    simp only [place, Option.some.injEq] at hp
    subst hp
    exact Or.inl hc
  | cons d kids ih =>
    intro kids' hp c hc
    by_cases hd : d.name = some w
    · cases d with
      | leaf i n => simp only [Obj.name] at hd; simp [place, hd] at hp
      | cont i n k =>
        simp only [Obj.name] at hd
        simp only [place, hd, if_true, Option.map_eq_some_iff] at hp
        obtain ⟨k', h1, rfl⟩ := hp
        right
        rcases List.mem_cons.1 hc with rfl | hc
        · exact ⟨_, List.mem_cons_self, hd.symm, rfl, Or.inr ⟨hd, k, k', rfl, rfl, h1⟩⟩
        · exact ⟨c, List.mem_cons_of_mem _ hc, rfl, rfl, Or.inl rfl⟩
    · rw [place_skip o fresh w ws d kids hd] at hp
      obtain ⟨k', h1, rfl⟩ := Option.map_eq_some_iff.1 hp
      rcases List.mem_cons.1 hc with rfl | hc
      · exact Or.inr ⟨c, List.mem_cons_self, rfl, rfl, Or.inl rfl⟩
      · rcases ih k' h1 c hc with h2 | ⟨c', h2, h3⟩
        · exact Or.inl h2
        · exact Or.inr ⟨c', List.mem_cons_of_mem _ h2, h3⟩

theorem at_kept (o : Obj) (p : List (List Char)) : ∀ (fresh : Nat) (ws : List (List Char)) (kids kids' : List Obj) (x : Obj),
    place o fresh ws kids = some kids' → At kids p x →
    ∃ x', At kids' p x' ∧ x'.id = x.id ∧ (x.kids? = none → x' = x) := by
  induction p with
  | nil => intro _ _ _ _ _ _ h; exact h.elim
  | cons v p ih =>
    intro fresh ws kids kids' x hp hat
    cases ws with
    | nil => simp [place] at hp
    | cons w ws =>
    by_cases hpn : p = []
    · subst hpn
      obtain ⟨hm, hn⟩ := hat
      obtain ⟨c', h1, h2, h3, h4⟩ := place_mem o fresh w ws kids kids' hp x hm
      refine ⟨c', ⟨h1, by rw [h2, hn]⟩, h3, ?_⟩
      intro hk
      rcases h4 with h4 | ⟨ck, _, h5, _⟩
      · exact h4
      · rw [hk] at h5; cases h5
    · rw [At_cons hpn] at hat
      obtain ⟨c, hm, ck, hn, hk, hat⟩ := hat
      obtain ⟨c', h1, h2, h3, h4⟩ := place_mem o fresh w ws kids kids' hp c hm
      rcases h4 with rfl | ⟨ck1, ck', h5, h6, h7⟩
      · exact ⟨x, (At_cons hpn).2 ⟨c', h1, ck, hn, hk, hat⟩, rfl, fun _ => rfl⟩
      · rw [hk] at h5
        cases h5
        obtain ⟨x', g1, g2, g3⟩ := ih fresh ws ck ck' x h7 hat
        exact ⟨x', (At_cons hpn).2 ⟨c', h1, ck', by rw [h2, hn], h6, g1⟩, g2, g3⟩

theorem at_nest (o : Obj) (ws : List (List Char)) : ∀ (fresh : Nat) (p : List (List Char)) (x : Obj),
    At (nest o fresh ws) p x → p <+: ws ∨ ws <+: p := by
  induction ws with
  | nil => intro _ p x _; exact Or.inr List.nil_prefix
  | cons w ws ih =>
    intro fresh p x hat
    cases p with
    | nil => exact hat.elim
    | cons v p =>
      by_cases hw : ws = []
      · subst hw
        have hv : v = w := by
          by_cases hp : p = []
          · subst hp
            obtain ⟨hm, hn⟩ := hat
            simp only [nest, List.mem_singleton] at hm
            subst hm
            rw [named_name] at hn
            exact (Option.some.inj hn).symm
          · rw [At_cons hp] at hat
            obtain ⟨c, hm, ck, hn, _⟩ := hat
            simp only [nest, List.mem_singleton] at hm
            subst hm
            rw [named_name] at hn
            exact (Option.some.inj hn).symm
        subst hv
        exact Or.inr (by simp [List.cons_prefix_cons])
      · rw [nest_cons o fresh w ws hw] at hat
        by_cases hp : p = []
        · subst hp
          obtain ⟨hm, hn⟩ := hat
          simp only [List.mem_singleton] at hm
          subst hm
          simp only [Obj.name, Option.some.injEq] at hn
          subst hn
          exact Or.inl (by simp [List.cons_prefix_cons])
        · rw [At_cons hp] at hat
          obtain ⟨c, hm, ck, hn, hk, hat⟩ := hat
          simp only [List.mem_singleton] at hm
          subst hm
          simp only [Obj.name, Option.some.injEq, Obj.kids?] at hn hk
          subst hn hk
          rcases ih (fresh + 1) p x hat with h | h
          · exact Or.inl (by simpa [List.cons_prefix_cons] using h)
          · exact Or.inr (by simpa [List.cons_prefix_cons] using h)

theorem at_new (o : Obj) (p : List (List Char)) : ∀ (fresh : Nat) (ws : List (List Char)) (kids kids' : List Obj) (x' : Obj),
    place o fresh ws kids = some kids' → At kids' p x' →
    (∃ x, At kids p x ∧ x'.id = x.id) ∨ p <+: ws ∨ ws <+: p := by
  induction p with
  | nil => intro _ _ _ _ _ _ h; exact h.elim
  | cons v p ih =>
    intro fresh ws kids kids' x' hp hat
    cases ws with
    | nil => simp [place] at hp
    | cons w ws =>
    by_cases hpn : p = []
    · subst hpn
      obtain ⟨hm, hn⟩ := hat
      rcases place_mem' o fresh w ws kids kids' hp x' hm with h1 | ⟨c, h1, h2, h3, _⟩
      · exact Or.inr (at_nest o (w :: ws) fresh [v] x' ⟨h1, hn⟩)
      · exact Or.inl ⟨c, ⟨h1, by rw [← h2, hn]⟩, h3⟩
    · rw [At_cons hpn] at hat
      obtain ⟨c', hm, ck', hn, hk, hat⟩ := hat
      rcases place_mem' o fresh w ws kids kids' hp c' hm with h1 | ⟨c, h1, h2, h3, h4⟩
      · exact Or.inr (at_nest o (w :: ws) fresh (v :: p) x' ((At_cons hpn).2 ⟨c', h1, ck', hn, hk, hat⟩))
      · rcases h4 with rfl | ⟨hcw, ck, ck1, h5, h6, h7⟩
        · exact Or.inl ⟨x', (At_cons hpn).2 ⟨c', h1, ck', hn, hk, hat⟩, rfl⟩
        · rw [hk] at h6
          cases h6
          have hvw : v = w := by rw [h2, hcw] at hn; exact (Option.some.inj hn).symm
          subst hvw
          rcases ih fresh ws ck ck' x' h7 hat with ⟨x, g1, g2⟩ | g | g
          · exact Or.inl ⟨x, (At_cons hpn).2 ⟨c, h1, ck, hcw, h5, g1⟩, g2⟩
          · exact Or.inr (Or.inl (by simpa [List.cons_prefix_cons] using g))
          · exact Or.inr (Or.inr (by simpa [List.cons_prefix_cons] using g))

theorem place_none (o : Obj) (ws : List (List Char)) : ∀ (fresh : Nat) (kids : List Obj), ws ≠ [] →
    place o fresh ws kids = none →
    ∃ p x, p <+: ws ∧ At kids p x ∧ (p = ws ∨ x.kids? = none) := by
  induction ws with
  | nil => intro _ _ h; exact absurd rfl h
  | cons w ws ih =>
    intro fresh kids
    induction kids with
    | nil => intro _ h; simp [place] at h
    | cons c kids ihk =>
      intro _ hp
      by_cases hc : c.name = some w
      · cases c with
        | leaf i n =>
          exact ⟨[w], .leaf i n, by simp [List.cons_prefix_cons], ⟨by simp, hc⟩, Or.inr rfl⟩
        | cont i n k =>
          have hc' := hc
          simp only [Obj.name] at hc'
          simp only [place, hc', if_true, Option.map_eq_none_iff] at hp
          by_cases hne : ws = []
          · subst hne
            exact ⟨[w], .cont i n k, List.prefix_refl _, ⟨by simp, hc⟩, Or.inl rfl⟩
          · obtain ⟨p, x, h1, h2, h3⟩ := ih fresh k hne hp
            have hpn : p ≠ [] := by rintro rfl; exact h2.elim
            refine ⟨w :: p, x, by simpa [List.cons_prefix_cons] using h1,
              (At_cons hpn).2 ⟨_, List.mem_cons_self, k, hc, rfl, h2⟩, ?_⟩
            rcases h3 with rfl | h3
            · exact Or.inl rfl
            · exact Or.inr h3
      · rw [place_skip o fresh w ws c kids hc, Option.map_eq_none_iff] at hp
        obtain ⟨p, x, h1, h2, h3⟩ := ihk (by simp) hp
        refine ⟨p, x, h1, ?_, h3⟩
        cases p with
        | nil => exact h2.elim
        | cons v p =>
          by_cases hpn : p = []
          · subst hpn; exact ⟨List.mem_cons_of_mem _ h2.1, h2.2⟩
          · rw [At_cons hpn] at h2 ⊢
            obtain ⟨d, hm, r⟩ := h2
            exact ⟨d, List.mem_cons_of_mem _ hm, r⟩

theorem place_occupied (o : Obj) (ws : List (List Char)) : ∀ (fresh : Nat) (kids : List Obj),
    (∀ k, Below kids k → UniqueNames k) → ∀ p x, p <+: ws → At kids p x → (p = ws ∨ x.kids? = none) →
    place o fresh ws kids = none := by
  induction ws with
  | nil => intro _ _ _ _ _ _ _ _; simp [place]
  | cons w ws ih =>
    intro fresh kids hu p x hpre hat hor
    cases hp : place o fresh (w :: ws) kids with
    | none => rfl
    | some kids' =>
    exfalso
    cases p with
    | nil => exact hat.elim
    | cons v p =>
      simp only [List.cons_prefix_cons] at hpre
      obtain ⟨rfl, hpre⟩ := hpre
      -- the first child of that name
      have first : ∀ c ∈ kids, c.name = some v →
          ∃ ck, c.kids? = some ck ∧ ∃ ck', place o fresh ws ck = some ck' := by
        have aux : ∀ (l : List Obj) (l' : List Obj), (∀ a ∈ l, ∀ b ∈ l, a.name = b.name → a = b) →
            place o fresh (v :: ws) l = some l' → ∀ c ∈ l, c.name = some v →
            ∃ ck, c.kids? = some ck ∧ ∃ ck', place o fresh ws ck = some ck' := by
          intro l
          induction l with
          | nil => intro _ _ _ c hc; simp at hc
          | cons e l ihl =>
            intro l' hul hpl c hc hcn
            by_cases he : e.name = some v
            · have hce : c = e := hul c hc e List.mem_cons_self (by rw [hcn, he])
              subst hce
              cases c with
              | leaf i n => simp only [Obj.name] at he; simp [place, he] at hpl
              | cont i n k =>
                simp only [Obj.name] at he
                simp only [place, he, if_true, Option.map_eq_some_iff] at hpl
                obtain ⟨k', h1, _⟩ := hpl
                exact ⟨k, rfl, k', h1⟩
            · rw [place_skip o fresh v ws e l he] at hpl
              obtain ⟨k', h1, _⟩ := Option.map_eq_some_iff.1 hpl
              rcases List.mem_cons.1 hc with rfl | hc
              · exact absurd hcn he
              · exact ihl k' (fun a ha b hb => hul a (List.mem_cons_of_mem _ ha) b (List.mem_cons_of_mem _ hb))
                  h1 c hc hcn
        exact aux kids kids' (hu kids .self) hp
      by_cases hpn : p = []
      · subst hpn
        obtain ⟨hm, hn⟩ := hat
        obtain ⟨ck, h1, ck', h2⟩ := first x hm hn
        rcases hor with hor | hor
        · have : ws = [] := (List.cons.inj hor).2.symm
          subst this
          simp [place] at h2
        · rw [h1] at hor; cases hor
      · rw [At_cons hpn] at hat
        obtain ⟨c, hm, ck, hn, hk, hat⟩ := hat
        obtain ⟨ck1, h1, ck', h2⟩ := first c hm hn
        rw [hk] at h1
        cases h1
        have := ih fresh ck (fun k hb => hu k (by
          clear hat ih h2
          induction hb with
          | self => exact .child .self hm hk
          | child _ h1 h2 ih => exact .child ih h1 h2)) p x hpre hat (by
            rcases hor with hor | hor
            · exact Or.inl (List.cons.inj hor).2
            · exact Or.inr hor)
        rw [this] at h2
        cases h2

/-! ## Names -/

theorem Named.of_cons {c : Obj} {rest : List Obj} (h1 : c.name.isSome) (h2 : Named rest)
    (h3 : ∀ ck, c.kids? = some ck → Named ck) : Named (c :: rest) := by
  unfold Named at *
  intro o ho
  simp only [preorders, List.mem_append] at ho
  rcases ho with ho | ho
  · cases c with
    | leaf i n =>
      simp only [Verif.Spec.RefC.preorder, List.mem_singleton] at ho
      subst ho; exact h1
    | cont i n k =>
      simp only [Verif.Spec.RefC.preorder, List.mem_cons] at ho
      rcases ho with rfl | ho
      · exact h1
      · exact h3 k rfl o ho
  · exact h2 o ho

theorem named_nil : Named [] := by intro o ho; simp [preorders] at ho

theorem named_kids (o : Obj) (w : List Char) : (named o w).kids? = o.kids? := by cases o <;> rfl

theorem named_nest (o : Obj) (ho : ∀ ck, o.kids? = some ck → Named ck) (ws : List (List Char)) :
    ∀ fresh, Named (nest o fresh ws) := by
  induction ws with
  | nil => intro _; exact named_nil
  | cons w ws ih =>
    intro fresh
    by_cases h : ws = []
    · subst h
      refine Named.of_cons (by rw [named_name]; rfl) named_nil ?_
      intro ck hk
      rw [named_kids] at hk
      exact ho ck hk
    · rw [nest_cons o fresh w ws h]
      refine Named.of_cons rfl named_nil ?_
      intro ck hk
      simp only [Obj.kids?, Option.some.injEq] at hk
      subst hk
      exact ih (fresh + 1)

theorem named_place (o : Obj) (ho : ∀ ck, o.kids? = some ck → Named ck) (ws : List (List Char)) :
    ∀ (fresh : Nat) (kids kids' : List Obj), Named kids → place o fresh ws kids = some kids' → Named kids' := by
  induction ws with
  | nil => intro _ _ _ _ h; simp [place] at h
  | cons w ws ih =>
    intro fresh kids
    induction kids with
    | nil =>
      intro kids' _ hp
      simp only [place, Option.some.injEq] at hp
      subst hp
      exact named_nest o ho (w :: ws) fresh
    | cons c kids ihk =>
      intro kids' hN hp
      obtain ⟨⟨m, h1⟩, h2, h3⟩ := hN.cons
      by_cases hc : c.name = some w
      · cases c with
        | leaf i n => simp only [Obj.name] at hc; simp [place, hc] at hp
        | cont i n k =>
          simp only [Obj.name] at hc
          simp only [place, hc, if_true, Option.map_eq_some_iff] at hp
          obtain ⟨k', g1, rfl⟩ := hp
          refine Named.of_cons rfl h2 ?_
          intro ck hk
          simp only [Obj.kids?, Option.some.injEq] at hk
          subst hk
          exact ih fresh k k' (h3 k rfl) g1
      · rw [place_skip o fresh w ws c kids hc] at hp
        obtain ⟨k', g1, rfl⟩ := Option.map_eq_some_iff.1 hp
        exact Named.of_cons (by rw [h1]; rfl) (ihk k' h2 g1) h3

/-! ## The search from a domain -/

theorem climb_eq (isDomain : Obj → Bool) (l : List Obj) : ∀ (d : Option Obj) (n : Nat),
    climb isDomain l d n =
      (if n = 0 then (d, 0) else if n ≤ (l.filter isDomain).length then ((l.filter isDomain)[n - 1]?, 0)
       else (((l.filter isDomain).getLast?).or d, n - (l.filter isDomain).length)) := by
  induction l with
  | nil =>
    intro d n
    by_cases h : n = 0
    · simp [climb, h]
    · simp [climb, h]
  | cons o l ih =>
    intro d n
    rw [climb]
    by_cases h : n = 0
    · simp [h]
    · simp only [h, if_false]
      by_cases hd : isDomain o
      · simp only [hd, if_true, List.filter_cons_of_pos]
        rw [ih]
        by_cases h1 : n = 1
        · subst h1; simp
        · have e1 : n - 1 ≠ 0 := by omega
          simp only [e1, if_false, List.length_cons]
          by_cases h2 : n - 1 ≤ (l.filter isDomain).length
          · rw [if_pos h2, if_pos (by omega)]
            obtain ⟨m, rfl⟩ : ∃ m, n = m + 2 := ⟨n - 2, by omega⟩
            simp
          · rw [if_neg h2, if_neg (by omega)]
            simp only [Prod.mk.injEq]
            refine ⟨?_, by omega⟩
            rw [List.getLast?_cons]
            cases (l.filter isDomain).getLast? <;> rfl
      · have hf : isDomain o = false := by simpa using hd
        simp only [hf, Bool.false_eq_true, if_false]
        rw [ih, List.filter_cons_of_neg (by simp [hf])]
        simp [h]

end Verif.RefC
