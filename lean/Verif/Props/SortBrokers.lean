import Verif.Spec.SortBrokers

/-!
# C117: the brokers of a function are in the order of its signals
-/
namespace Verif.SortBrokers

open Verif.Spec.SortBrokers

set_option maxRecDepth 8000
set_option linter.unusedSimpArgs false

private theorem insert_at : ∀ (p x : List Broker) (b : Broker), (p ++ x).insertIdx p.length b = p ++ b :: x
  | [], x, b => by simp
  | c :: p, x, b => by
    rw [List.cons_append, List.length_cons, List.insertIdx_succ_cons, insert_at p x b, List.cons_append]

private theorem place_eq (pre m u r : List Broker) (b : Broker) (h : (pre ++ m ++ u ++ b :: r).Nodup) :
    place (pre ++ m ++ u ++ b :: r) b (pre ++ m).length = pre ++ (m ++ [b]) ++ u ++ r := by
  unfold place
  have hb : b ∉ pre ++ m ++ u := by
    rw [List.nodup_append] at h
    intro hb
    exact h.2.2 b hb b (by simp) rfl
  rw [List.erase_append_right _ hb, List.erase_cons_head, List.append_assoc (pre ++ m) u r]
  rw [insert_at]
  simp

private theorem inner_eq (ds : Name) : ∀ (r pre m u : List Broker), (pre ++ m ++ u ++ r).Nodup →
    inner ds r.length (pre ++ m ++ u).length (pre ++ m ++ u ++ r) (pre ++ m).length =
      (pre ++ (m ++ r.filter fun b => b.source = ds) ++ (u ++ r.filter fun b => ¬ b.source = ds),
        (pre ++ (m ++ r.filter fun b => b.source = ds)).length)
  | [], pre, m, u, _ => by simp [inner]
  | b :: r, pre, m, u, h => by
    have hget : (pre ++ m ++ u ++ b :: r)[(pre ++ m ++ u).length]? = some b := by simp
    rw [List.length_cons]
    unfold inner
    rw [hget]
    simp only
    by_cases hb : b.source = ds
    · rw [if_pos hb]
      have hl : (if (pre ++ m).length ≠ (pre ++ m ++ u).length then place (pre ++ m ++ u ++ b :: r) b (pre ++ m).length else pre ++ m ++ u ++ b :: r) =
          pre ++ (m ++ [b]) ++ u ++ r := by
        split
        · exact place_eq pre m u r b h
        · rename_i hn
          have : u = [] := by
            have : u.length = 0 := by simp at hn; simpa using hn
            exact List.length_eq_zero_iff.mp this
          subst this; simp
      rw [hl]
      have hp : (pre ++ (m ++ [b]) ++ u ++ r).Perm (pre ++ m ++ u ++ b :: r) := by
        simp only [List.append_assoc]
        refine List.Perm.append_left _ (List.Perm.append_left _ ?_)
        exact (List.perm_middle (a := b) (l₁ := u) (l₂ := r)).symm
      have ih := inner_eq ds r pre (m ++ [b]) u (hp.nodup_iff.mpr h)
      have e1 : (pre ++ (m ++ [b]) ++ u).length = (pre ++ m ++ u).length + 1 := by simp; omega
      have e2 : (pre ++ (m ++ [b])).length = (pre ++ m).length + 1 := by simp; omega
      rw [e1, e2] at ih
      rw [ih]
      simp [hb]
    · rw [if_neg hb]
      have ih := inner_eq ds r pre m (u ++ [b]) (by simpa using h)
      have e1 : (pre ++ m ++ (u ++ [b])).length = (pre ++ m ++ u).length + 1 := by simp; omega
      rw [e1] at ih
      have e3 : pre ++ m ++ (u ++ [b]) ++ r = pre ++ m ++ u ++ b :: r := by simp
      rw [e3] at ih
      rw [ih]
      simp [hb]

/-- The brokers by data source. -/
private def group : List Name → List Broker → List Broker
  | [], l => l
  | d :: ds, l => (l.filter fun b => b.source = d) ++ group ds (l.filter fun b => ¬ b.source = d)

private theorem group_nil : ∀ ds, group ds [] = []
  | [] => rfl
  | d :: ds => by simp [group, group_nil ds]

private theorem group_perm : ∀ (ds : List Name) (l : List Broker), (group ds l).Perm l
  | [], l => List.Perm.refl _
  | d :: ds, l => by
    unfold group
    refine ((group_perm ds _).append_left _).trans ?_
    have := List.filter_append_perm (fun b : Broker => decide (b.source = d)) l
    simpa using this

private theorem sort_eq : ∀ (ds : List Name) (pre r : List Broker), (pre ++ r).Nodup →
    sort (ds.map some) (pre ++ r) pre.length = (true, pre ++ group ds r)
  | [], pre, r, _ => rfl
  | d :: ds, pre, r, h => by
    rw [List.map_cons]
    unfold sort
    have hi := inner_eq d r pre [] [] (by simpa using h)
    simp only [List.append_nil, List.nil_append] at hi
    have hlen : (pre ++ r).length - pre.length = r.length := by simp
    simp only [hlen, hi]
    have hp : (pre ++ ((r.filter fun b => b.source = d) ++ r.filter fun b => ¬ b.source = d)).Perm (pre ++ r) := by
      refine List.Perm.append_left _ ?_
      have := List.filter_append_perm (fun b : Broker => decide (b.source = d)) r
      simpa using this
    split
    · rename_i he
      have h0 : (r.filter fun b => ¬ b.source = d) = [] := by
        have := hp.length_eq
        simp only [List.length_append] at this he
        exact List.length_eq_zero_iff.mp (by omega)
      rw [group, h0, group_nil]; simp
    · have := sort_eq ds (pre ++ r.filter fun b => b.source = d) (r.filter fun b => ¬ b.source = d) (by
        rw [List.append_assoc]; exact hp.nodup_iff.mpr h)
      rw [this, group]; simp

private theorem rank_cons (d : Name) (ds : List (Option Name)) (b : Broker) :
    rank (some d :: ds) b = if b.source = d then 0 else rank ds b + 1 := by
  unfold rank
  rw [List.idxOf_cons]
  by_cases h : b.source = d
  · simp [h]
  · have : (some d == some b.source) = false := by simp; exact fun e => h e.symm
    rw [this]; simp [h]

private theorem group_order : ∀ (ds : List Name) (l : List Broker), InOrder (ds.map some) l (group ds l)
  | [], l => ⟨List.Perm.refl _, by
      refine List.pairwise_of_forall ?_
      intro a b; simp [rank], fun k => rfl⟩
  | d :: ds, l => by
    have ih := group_order ds (l.filter fun b => ¬ b.source = d)
    refine ⟨group_perm _ _, ?_, fun k => ?_⟩
    · unfold group
      rw [List.map_cons, List.pairwise_append]
      refine ⟨?_, ?_, ?_⟩
      · refine List.Pairwise.imp_of_mem (R := fun _ _ => True) ?_ (List.pairwise_of_forall fun _ _ => trivial)
        intro a b ha hb _
        have := (List.mem_filter.mp ha).2
        rw [rank_cons, if_pos (by simpa using this)]; omega
      · refine ih.sorted.imp_of_mem ?_
        intro a b ha hb hab
        have h1 := (List.mem_filter.mp (ih.perm.mem_iff.mp ha)).2
        have h2 := (List.mem_filter.mp (ih.perm.mem_iff.mp hb)).2
        rw [rank_cons, rank_cons, if_neg (by simpa using h1), if_neg (by simpa using h2)]; omega
      · intro a ha b hb
        have := (List.mem_filter.mp ha).2
        rw [rank_cons, if_pos (by simpa using this)]; omega
    · unfold group
      rw [List.map_cons, List.filter_append]
      cases k with
      | zero =>
        have h1 : ((l.filter fun b => b.source = d).filter fun b => rank (some d :: ds.map some) b = 0) = l.filter fun b => b.source = d := by
          rw [List.filter_eq_self]
          intro b hb
          have := (List.mem_filter.mp hb).2
          rw [rank_cons, if_pos (by simpa using this)]; rfl
        have h2 : ((group ds (l.filter fun b => ¬ b.source = d)).filter fun b => rank (some d :: ds.map some) b = 0) = [] := by
          rw [List.filter_eq_nil_iff]
          intro b hb
          have := (List.mem_filter.mp (ih.perm.mem_iff.mp hb)).2
          rw [rank_cons, if_neg (by simpa using this)]; simp
        rw [h1, h2, List.append_nil]
        refine List.filter_congr fun b _ => ?_
        rw [rank_cons]
        by_cases hb : b.source = d <;> simp [hb]
      | succ k =>
        have h1 : ((l.filter fun b => b.source = d).filter fun b => rank (some d :: ds.map some) b = k + 1) = [] := by
          rw [List.filter_eq_nil_iff]
          intro b hb
          have := (List.mem_filter.mp hb).2
          rw [rank_cons, if_pos (by simpa using this)]; simp
        have h2 : ((group ds (l.filter fun b => ¬ b.source = d)).filter fun b => rank (some d :: ds.map some) b = k + 1) =
            (group ds (l.filter fun b => ¬ b.source = d)).filter fun b => rank (ds.map some) b = k := by
          refine List.filter_congr fun b hb => ?_
          have := (List.mem_filter.mp (ih.perm.mem_iff.mp hb)).2
          rw [rank_cons, if_neg (by simpa using this)]; simp
        rw [h1, h2, List.nil_append, ih.stable k, List.filter_filter]
        refine List.filter_congr fun b _ => ?_
        rw [rank_cons]
        by_cases hb : b.source = d <;> simp [hb]

private theorem all_some : ∀ (s : List (Option Name)), none ∉ s → ∃ ds : List Name, s = ds.map some
  | [], _ => ⟨[], rfl⟩
  | none :: _, h => absurd List.mem_cons_self h
  | some d :: s, h => by
    obtain ⟨ds, e⟩ := all_some s fun hx => h (List.mem_cons_of_mem _ hx)
    exact ⟨d :: ds, by rw [e]; rfl⟩

/-- C117: sorting the brokers of a function, which are different objects, puts the input brokers in the order of the input signals and
the output brokers in that of the output signals, and loses none. -/
theorem c117_sorted (g : Gam) (hi : none ∉ g.inputs) (ho : none ∉ g.outputs) (h1 : g.inBrokers.Nodup) (h2 : g.outBrokers.Nodup) :
    ∃ g', sortBrokers g = (true, g') ∧ g'.inputs = g.inputs ∧ g'.outputs = g.outputs ∧
      InOrder g.inputs g.inBrokers g'.inBrokers ∧ InOrder g.outputs g.outBrokers g'.outBrokers := by
  obtain ⟨di, ei⟩ := all_some g.inputs hi
  obtain ⟨do_, eo⟩ := all_some g.outputs ho
  have si := sort_eq di [] g.inBrokers h1
  have so := sort_eq do_ [] g.outBrokers h2
  rw [List.nil_append, ← ei] at si
  rw [List.nil_append, ← eo] at so
  refine ⟨{ g with inBrokers := group di g.inBrokers, outBrokers := group do_ g.outBrokers }, ?_, rfl, rfl, ?_, ?_⟩
  · unfold sortBrokers
    simp only [List.length_nil, List.nil_append] at si so
    simp only [si, so, if_true]
  · rw [ei]; exact group_order di _
  · rw [eo]; exact group_order do_ _

private theorem sort_false : ∀ (ds : List Name) (post : List (Option Name)) (pre r : List Broker), (pre ++ r).Nodup →
    (∃ b ∈ r, b.source ∉ ds) → (sort (ds.map some ++ none :: post) (pre ++ r) pre.length).1 = false
  | [], _, _, _, _, _ => rfl
  | d :: ds, post, pre, r, h, hb => by
    rw [List.map_cons, List.cons_append]
    unfold sort
    have hi := inner_eq d r pre [] [] (by simpa using h)
    simp only [List.append_nil, List.nil_append] at hi
    have hlen : (pre ++ r).length - pre.length = r.length := by simp
    simp only [hlen, hi]
    have hp : (pre ++ ((r.filter fun b => b.source = d) ++ r.filter fun b => ¬ b.source = d)).Perm (pre ++ r) := by
      refine List.Perm.append_left _ ?_
      have := List.filter_append_perm (fun b : Broker => decide (b.source = d)) r
      simpa using this
    obtain ⟨b, hb, hs⟩ := hb
    have hm : b ∈ r.filter fun b => ¬ b.source = d := by
      rw [List.mem_filter]; refine ⟨hb, ?_⟩
      have : ¬ b.source = d := fun e => hs (by rw [e]; exact List.mem_cons_self)
      simpa using this
    have hl := List.length_pos_of_mem hm
    split
    · rename_i he
      have := hp.length_eq
      simp only [List.length_append] at this he
      omega
    · have := sort_false ds post (pre ++ r.filter fun b => b.source = d) (r.filter fun b => ¬ b.source = d) (by
        rw [List.append_assoc]; exact hp.nodup_iff.mpr h) ⟨b, hm, fun e => hs (List.mem_cons_of_mem _ e)⟩
      simpa using this

/-- C117: when the data source of a signal cannot be read, and a broker is of no data source of a signal before it, sorting the brokers of the function is
refused. -/
theorem c117_refused (g : Gam) (ds : List Name) (post : List (Option Name)) (b : Broker) (hs : b.source ∉ ds) :
    (g.inBrokers.Nodup → g.inputs = ds.map some ++ none :: post → b ∈ g.inBrokers → (sortBrokers g).1 = false) ∧
    (g.outBrokers.Nodup → g.outputs = ds.map some ++ none :: post → b ∈ g.outBrokers → (sortBrokers g).1 = false) := by
  constructor
  · intro h e hb
    have := sort_false ds post [] g.inBrokers h ⟨b, hb, hs⟩
    rw [← e] at this
    unfold sortBrokers
    simp only [List.nil_append, List.length_nil] at this
    simp [this]
  · intro h e hb
    have := sort_false ds post [] g.outBrokers h ⟨b, hb, hs⟩
    rw [← e] at this
    unfold sortBrokers
    simp only [List.nil_append, List.length_nil] at this
    by_cases hi : (sort g.inputs g.inBrokers 0).1 = true
    · simp only [if_pos hi]; exact this
    · simp only [if_neg hi]

private theorem addTo_some {s : Source} {path : List Name} {g g' : Gam} (h : addTo s path g = some g') :
    g'.inputs = g.inputs ∧ g'.outputs = g.outputs ∧
    g'.inBrokers = g.inBrokers ++ (if g.inputs = [] then [] else (s.inputs path).getD []) ∧
    g'.outBrokers = g.outBrokers ++ (if g.outputs = [] then [] else (s.outputs path).getD []) := by
  unfold addTo at h
  simp only at h
  split at h
  · rename_i i o hi ho
    cases h
    refine ⟨rfl, rfl, ?_, ?_⟩
    · show _ ++ i = _
      split at hi
      · rename_i he; cases hi; rw [if_pos he]
      · rename_i he; rw [if_neg he, hi]; rfl
    · show _ ++ o = _
      split at ho
      · rename_i he; cases ho; rw [if_pos he]
      · rename_i he; rw [if_neg he, ho]; rfl
  · exact absurd h (by simp)

private theorem addAll_at (s : Source) : ∀ (o o' : Objects) (pre p : List Name) (g : Gam), addAll s o pre = some o' → gamAt o p = some g →
    ∃ g', gamAt o' p = some g' ∧ addTo s (pre ++ p) g = some g'
  | .nil, _, _, _, _, _, hg => absurd hg (by simp [gamAt])
  | .cons n x k r, o', pre, [], g, _, hg => absurd hg (by simp [gamAt])
  | .cons n x k r, o', pre, a :: p, g, h, hg => by
    unfold addAll at h
    simp only at h
    split at h
    · rename_i x' k' r' hx hk hr
      cases h
      unfold gamAt at hg ⊢
      by_cases hn : n = a
      · rw [if_pos hn] at hg
        rw [if_pos hn]
        by_cases hp : p = []
        · rw [if_pos hp] at hg
          rw [if_pos hp]
          subst hg
          simp only at hx
          obtain ⟨g', h1, h2⟩ := Option.map_eq_some_iff.mp hx
          rw [hp, ← hn]
          exact ⟨g', h2.symm, h1⟩
        · rw [if_neg hp] at hg
          rw [if_neg hp]
          have := addAll_at s k k' (pre ++ [n]) p g hk hg
          rw [List.append_assoc, hn] at this
          exact this
      · rw [if_neg hn] at hg
        rw [if_neg hn]
        exact addAll_at s r r' pre (a :: p) g hr hg
    · exact absurd h (by simp)

private theorem addSources_at : ∀ (ss : List Source) (o o' : Objects) (p : List Name) (g : Gam), addSources ss o = some o' → gamAt o p = some g →
    ∃ g', gamAt o' p = some g' ∧ g'.inputs = g.inputs ∧ g'.outputs = g.outputs ∧ g'.inBrokers = g.inBrokers ++ madeIn ss p g ∧
      g'.outBrokers = g.outBrokers ++ madeOut ss p g
  | [], o, o', p, g, h, hg => by
    cases h
    exact ⟨g, hg, rfl, rfl, by simp [madeIn], by simp [madeOut]⟩
  | s :: ss, o, o', p, g, h, hg => by
    unfold addSources at h
    split at h
    · exact absurd h (by simp)
    · rename_i o1 h1
      obtain ⟨g1, e1, e2⟩ := addAll_at s o o1 [] p g h1 hg
      rw [List.nil_append] at e2
      obtain ⟨a1, a2, a3, a4⟩ := addTo_some e2
      obtain ⟨g', b1, b2, b3, b4, b5⟩ := addSources_at ss o1 o' p g1 h e1
      refine ⟨g', b1, b2.trans a1, b3.trans a2, ?_, ?_⟩
      · rw [b4, a3]
        unfold madeIn
        rw [a1]
        by_cases hi : g.inputs = [] <;> simp [hi]
      · rw [b5, a4]
        unfold madeOut
        rw [a2]
        by_cases hi : g.outputs = [] <;> simp [hi]

private theorem sortTop_at : ∀ (o o' : Objects) (p : List Name) (g : Gam), sortTop o = some o' → gamAt o p = some g →
    ∃ g', gamAt o' p = some g' ∧ (p.length = 1 → sortBrokers g = (true, g')) ∧ (p.length ≠ 1 → g' = g)
  | .nil, _, _, _, _, hg => absurd hg (by simp [gamAt])
  | .cons n x k r, o', [], g, _, hg => absurd hg (by simp [gamAt])
  | .cons n x k r, o', a :: p, g, h, hg => by
    have key : ∃ x' r', o' = .cons n x' k r' ∧ sortTop r = some r' ∧ ∀ y, x = some y → ∃ y', x' = some y' ∧ sortBrokers y = (true, y') := by
      unfold sortTop at h
      split at h
      · obtain ⟨r', h1, rfl⟩ := Option.map_eq_some_iff.mp h
        exact ⟨none, r', rfl, h1, by simp⟩
      · rename_i y
        simp only at h
        split at h
        · rename_i ht
          obtain ⟨r', h1, rfl⟩ := Option.map_eq_some_iff.mp h
          refine ⟨_, r', rfl, h1, fun z hz => ?_⟩
          cases hz
          refine ⟨_, rfl, ?_⟩
          rw [← ht]
        · exact absurd h (by simp)
    obtain ⟨x', r', rfl, hr, hx⟩ := key
    unfold gamAt at hg ⊢
    by_cases hn : n = a
    · rw [if_pos hn] at hg
      rw [if_pos hn]
      by_cases hp : p = []
      · rw [if_pos hp] at hg
        rw [if_pos hp]
        obtain ⟨y', h1, h2⟩ := hx g hg
        exact ⟨y', h1, fun _ => h2, fun hl => absurd (by simp [hp]) hl⟩
      · rw [if_neg hp] at hg
        rw [if_neg hp]
        refine ⟨g, hg, fun hl => ?_, fun _ => rfl⟩
        rw [List.length_cons] at hl
        exact absurd (List.length_eq_zero_iff.mp (by omega)) hp
    · rw [if_neg hn] at hg
      rw [if_neg hn]
      exact sortTop_at r r' (a :: p) g hr hg

/-- C117: when the application is configured, a function that is directly in `Functions` gets the brokers that the data sources made for
it, in the order of its signals.  Partial: not the functions inside other containers. -/
theorem c117_application_partial (ss : List Source) (o o' : Objects) (h : addBrokersToFunctions ss o = some o') (n : Name) (g : Gam)
    (hg : gamAt o [n] = some g) (hi : none ∉ g.inputs) (ho : none ∉ g.outputs) (h1 : (g.inBrokers ++ madeIn ss [n] g).Nodup)
    (h2 : (g.outBrokers ++ madeOut ss [n] g).Nodup) :
    ∃ g', gamAt o' [n] = some g' ∧ InOrder g.inputs (g.inBrokers ++ madeIn ss [n] g) g'.inBrokers ∧
      InOrder g.outputs (g.outBrokers ++ madeOut ss [n] g) g'.outBrokers := by
  unfold addBrokersToFunctions at h
  split at h
  · exact absurd h (by simp)
  · rename_i o1 ho1
    obtain ⟨g1, b1, b2, b3, b4, b5⟩ := addSources_at ss o o1 [n] g ho1 hg
    obtain ⟨g', c1, c2, _⟩ := sortTop_at o1 o' [n] g1 h b1
    obtain ⟨g2, d1, _, _, d2, d3⟩ := c117_sorted g1 (by rw [b2]; exact hi) (by rw [b3]; exact ho) (by rw [b4]; exact h1) (by rw [b5]; exact h2)
    rw [c2 rfl] at d1
    cases d1
    refine ⟨g', c1, ?_, ?_⟩
    · rw [← b2, ← b4]; exact d2
    · rw [← b3, ← b5]; exact d3

/-- C117: whatever happens to the order, every function, at any depth, gets exactly the brokers made for it; the brokers of the
functions inside other containers are in the order of the data sources, not of the signals. -/
theorem c117_nested_partial (ss : List Source) (o o' : Objects) (h : addBrokersToFunctions ss o = some o') (p : List Name) (g : Gam)
    (hg : gamAt o p = some g) (hp : p.length ≠ 1) :
    ∃ g', gamAt o' p = some g' ∧ g'.inBrokers = g.inBrokers ++ madeIn ss p g ∧ g'.outBrokers = g.outBrokers ++ madeOut ss p g := by
  unfold addBrokersToFunctions at h
  split at h
  · exact absurd h (by simp)
  · rename_i o1 ho1
    obtain ⟨g1, b1, _, _, b4, b5⟩ := addSources_at ss o o1 p g ho1 hg
    obtain ⟨g', c1, _, c3⟩ := sortTop_at o1 o' p g1 h b1
    rw [c3 hp] at c1
    exact ⟨g1, c1, b4, b5⟩

private def fn0 : Gam := ⟨[some ['B'], some ['A']], [], [], []⟩
private def srcA : Source := ⟨fun _ => some [⟨1, ['A']⟩], fun _ => some []⟩
private def srcB : Source := ⟨fun _ => some [⟨2, ['B']⟩], fun _ => some []⟩

/-- C117: the same function reads its data sources in another order when it is in a container inside `Functions`. -/
theorem c117_nested_fails : ∃ (ss : List Source) (g : Gam) (x y : Objects),
    addBrokersToFunctions ss (.cons ['G'] (some g) .nil .nil) = some x ∧
    addBrokersToFunctions ss (.cons ['C'] none (.cons ['G'] (some g) .nil .nil) .nil) = some y ∧
    (gamAt x [['G']]).map (·.inBrokers) = some [⟨2, ['B']⟩, ⟨1, ['A']⟩] ∧
    (gamAt y [['C'], ['G']]).map (·.inBrokers) = some [⟨1, ['A']⟩, ⟨2, ['B']⟩] ∧
    ¬ InOrder g.inputs [⟨1, ['A']⟩, ⟨2, ['B']⟩] [⟨1, ['A']⟩, ⟨2, ['B']⟩] := by
  refine ⟨[srcA, srcB], fn0, _, _, rfl, rfl, by decide, by decide, fun h => ?_⟩
  have := h.sorted
  revert this
  decide

/-- The hypotheses of `c117_application_partial` are met by this application. -/
example : ∃ o', addBrokersToFunctions [srcA, srcB] (.cons ['G'] (some fn0) .nil .nil) = some o' ∧ none ∉ fn0.inputs ∧
    (fn0.inBrokers ++ madeIn [srcA, srcB] [['G']] fn0).Nodup ∧ (madeIn [srcA, srcB] [['G']] fn0).length = 2 :=
  ⟨_, rfl, by decide, by decide, by decide⟩

end Verif.SortBrokers
