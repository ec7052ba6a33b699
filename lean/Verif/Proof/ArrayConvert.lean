import Verif.Spec.ArrayConvert
set_option linter.unusedSimpArgs false
namespace Verif.ArrayConvert
open Verif.Spec.ArrayConvert

theorem chunk_length (m : Mem) (a w : Nat) : (chunk m a w).length = w := by simp [chunk]

theorem chunk_congr {m m' : Mem} {a w : Nat} (h : ∀ x, a ≤ x → x < a + w → m' x = m x) : chunk m' a w = chunk m a w := by
  unfold chunk
  apply List.map_congr_left
  intro i hi
  have := List.mem_range.1 hi
  exact h _ (by omega) (by omega)

theorem blit_outside (m : Mem) (a : Nat) (bs : List UInt8) (x : Nat) (h : ¬ (a ≤ x ∧ x < a + bs.length)) : blit m a bs x = m x := by
  unfold blit
  rw [if_neg h]

theorem chunk_blit (m : Mem) (a : Nat) (bs : List UInt8) : chunk (blit m a bs) a bs.length = bs := by
  apply List.ext_getElem
  · simp [chunk]
  · intro i h1 h2
    simp only [chunk, List.getElem_map, List.getElem_range, blit]
    rw [if_pos ⟨by omega, by omega⟩, Nat.add_sub_cancel_left]
    simp [List.getD, List.getElem?_eq_getElem h2]

/-- The fold over pairs of places. -/
def foldPlaces (e : Elem S) (w : Nat) (places : List (Nat × Nat)) (st : Bool × Mem) : Bool × Mem :=
  places.foldl (fun st p => convertOne e p.1 p.2 w st) st

theorem foldPlaces_bool (e : Elem S) (w : Nat) : ∀ (places : List (Nat × Nat)) (b : Bool) (m : Mem),
    foldPlaces e w places (b, m) = (b && (foldPlaces e w places (true, m)).1, (foldPlaces e w places (true, m)).2)
  | [], b, m => by simp [foldPlaces]
  | p :: l, b, m => by
    have h := foldPlaces_bool e w l
    simp only [foldPlaces, List.foldl_cons, convertOne] at h ⊢
    rw [h (b && _), h (true && _)]
    simp [Bool.and_assoc]

theorem foldPlaces_spec (e : Elem S) (hk : Keeps e) (w : Nat) : ∀ (places : List (Nat × Nat)) (m : Mem), Apart e w places m →
    Elementwise e w places m (foldPlaces e w places (true, m))
  | [], m, _ => ⟨by simp [foldPlaces], by simp, fun x _ => rfl⟩
  | p :: l, m, ⟨hp, hr⟩ => by
    rw [List.pairwise_cons] at hp
    have hlen : (e.conv (e.read m p.2) (chunk m p.1 w)).2.length = w := by rw [hk, chunk_length]
    have hout : ∀ x, ¬ (p.1 ≤ x ∧ x < p.1 + w) → blit m p.1 (e.conv (e.read m p.2) (chunk m p.1 w)).2 x = m x := fun x h =>
      blit_outside _ _ _ _ (by rw [hlen]; exact h)
    have hin := chunk_blit m p.1 (e.conv (e.read m p.2) (chunk m p.1 w)).2
    rw [hlen] at hin
    have hstep : foldPlaces e w (p :: l) (true, m) = foldPlaces e w l ((e.conv (e.read m p.2) (chunk m p.1 w)).1,
        blit m p.1 (e.conv (e.read m p.2) (chunk m p.1 w)).2) := by
      simp [foldPlaces, convertOne, bytes, chunk]
    rw [hstep, foldPlaces_bool]
    generalize hm1 : blit m p.1 (e.conv (e.read m p.2) (chunk m p.1 w)).2 = m1 at *
    have hread : ∀ q, q ∈ l → ∀ m' : Mem, (∀ x, Outside w l x → m' x = m1 x) → e.read m' q.2 = e.read m q.2 := fun q hq m' h =>
      hr q (List.mem_cons_of_mem _ hq) m' fun x hx => by
        rw [h x fun q' hq' => hx q' (List.mem_cons_of_mem _ hq'), hout x (hx p (by simp))]
    have hch : ∀ q, q ∈ l → chunk m1 q.1 w = chunk m q.1 w := fun q hq => chunk_congr fun x h1 h2 => hout x (by
      have := hp.1 q hq
      omega)
    obtain ⟨i1, i2, i3⟩ := foldPlaces_spec e hk w l m1 ⟨hp.2, fun q hq m' h => by rw [hread q hq m' h, hread q hq m1 fun _ _ => rfl]⟩
    have hc : ∀ q, q ∈ l → e.conv (e.read m1 q.2) (chunk m1 q.1 w) = e.conv (e.read m q.2) (chunk m q.1 w) := fun q hq => by
      rw [hread q hq m1 fun _ _ => rfl, hch q hq]
    refine ⟨?_, ?_, ?_⟩
    · simp only [Bool.and_eq_true, i1]
      constructor
      · rintro ⟨h0, h⟩ q hq
        rcases List.mem_cons.1 hq with rfl | hq
        · exact h0
        · rw [← hc q hq]; exact h q hq
      · intro h
        exact ⟨h p (by simp), fun q hq => by rw [hc q hq]; exact h q (List.mem_cons_of_mem _ hq)⟩
    · intro q hq
      rcases List.mem_cons.1 hq with rfl | hq
      · rw [← hin]
        apply chunk_congr
        intro x h1 h2
        refine i3 x fun q' hq' => ?_
        have := hp.1 q' hq'
        omega
      · simp only
        rw [i2 q hq, hc q hq]
    · intro x hx
      simp only
      rw [i3 x fun q hq => hx q (List.mem_cons_of_mem _ hq)]
      exact hout x (hx p (by simp))

theorem convertVector_places (e : Elem S) (dst src : Any) (m : Mem) (n : Nat) (hn : (if src.char then src.n1 else src.n0) = n)
    (hd : ∀ i, i < n → dst.element i = vectorPlace dst i) (hs : ∀ i, i < n → src.element i = vectorPlace src i) :
    convertVector e dst src m = foldPlaces e (width dst) (vectorPlaces dst src n) (true, m) := by
  unfold convertVector foldPlaces vectorPlaces
  rw [List.foldl_map]
  simp only [hn]
  have : ∀ (l : List Nat) (st : Bool × Mem), (∀ i, i ∈ l → i < n) →
      l.foldl (fun st idx => convertOne e (dst.element idx) (src.element idx) dst.width st) st
      = l.foldl (fun st i => convertOne e (vectorPlace dst i) (vectorPlace src i) (width dst) st) st := by
    intro l
    induction l with
    | nil => intros; rfl
    | cons i l ih =>
      intro st h
      rw [List.foldl_cons, List.foldl_cons, ih _ fun j hj => h j (List.mem_cons_of_mem _ hj), hd i (h i (by simp)), hs i (h i (by simp))]
      rfl
  exact this _ _ fun i hi => List.mem_range.1 hi

theorem u32_small {n : Nat} (h : n < 2 ^ 32) : u32 n = n := Nat.mod_eq_of_lt h

theorem element_place (a : Any) (n i : Nat) (hi : i < n) (h : n * width a < 2 ^ 32) (hs : a.char = true → a.size = 1) : a.element i = vectorPlace a i := by
  have hle : i * width a ≤ n * width a := Nat.mul_le_mul_right _ (Nat.le_of_lt hi)
  unfold Any.element vectorPlace
  unfold width at h hle
  cases hc : a.char with
  | false =>
    rw [hc] at h hle
    simp only [Bool.false_eq_true, if_false] at h hle ⊢
    rw [u32_small (by omega)]
  | true =>
    rw [hc] at h hle
    have := hs hc
    simp only [if_true, this, Nat.one_mul, Nat.mul_one] at h hle ⊢
    cases a.static with
    | false => rfl
    | true =>
      simp only [if_true]
      have e : u32 (u32 i * a.n0) = u32 (i * a.n0) := by
        unfold u32
        rw [Nat.mul_mod, Nat.mod_mod, ← Nat.mul_mod]
      rw [e, u32_small (by omega)]

theorem foldl_flatMap {α β σ} (f : σ → β → σ) (g : α → List β) : ∀ (l : List α) (s : σ), (l.flatMap g).foldl f s = l.foldl (fun s a => (g a).foldl f s) s
  | [], s => rfl
  | a :: l, s => by rw [List.flatMap_cons, List.foldl_append, List.foldl_cons, foldl_flatMap f g l]

theorem row_place (a : Any) (cols rows r c : Nat) (hc : a.char = false) (hn : a.n0 = cols) (hr : r < rows) (hcol : c < cols)
    (h : rows * cols * a.size < 2 ^ 32) : (a.row cols r).element c = matrixPlace a r c := by
  have h1 : (r + 1) * cols ≤ rows * cols := Nat.mul_le_mul_right _ hr
  rw [Nat.succ_mul] at h1
  have h2 : (r * cols + c + 1) * a.size ≤ rows * cols * a.size := Nat.mul_le_mul_right _ (by omega)
  rw [Nat.succ_mul, Nat.add_mul] at h2
  have e : u32 (u32 (r * cols) * a.size) = u32 (r * cols * a.size) := by
    unfold u32
    rw [Nat.mul_mod, Nat.mod_mod, ← Nat.mul_mod]
  simp only [Any.element, Any.row, matrixPlace, hc, Bool.false_eq_true, if_false, hn]
  cases a.static with
  | false => simp only [Bool.false_eq_true, if_false]; rw [u32_small (by omega)]
  | true =>
    simp only [if_true]
    rw [e, u32_small (by omega), u32_small (by omega), Nat.add_mul]
    omega

theorem convertMatrix_places (e : Elem S) (dst src : Any) (m : Mem) (hcd : dst.char = false) (hcs : src.char = false) (hn : src.n0 = dst.n0)
    (hd : dst.n1 * dst.n0 * dst.size < 2 ^ 32) (hs : dst.n1 * dst.n0 * src.size < 2 ^ 32) :
    convertMatrix e dst src m = foldPlaces e (width dst) (matrixPlaces dst src) (true, m) := by
  unfold convertMatrix matrixPlaces
  rw [foldPlaces, foldl_flatMap]
  have hrow : ∀ (r : Nat) (m : Mem), r < dst.n1 → convertVector e (dst.row dst.n0 r) (src.row dst.n0 r) m
      = foldPlaces e (width dst) ((List.range dst.n0).map fun c => (matrixPlace dst r c, matrixPlace src r c)) (true, m) := by
    intro r m hr
    unfold convertVector foldPlaces
    rw [List.foldl_map]
    have hsz : (if (src.row dst.n0 r).char then (src.row dst.n0 r).n1 else (src.row dst.n0 r).n0) = dst.n0 := by simp [Any.row, hcs]
    simp only [hsz]
    have hw : (dst.row dst.n0 r).width = width dst := by simp [Any.width, width, Any.row, hcd]
    rw [hw]
    have : ∀ (l : List Nat) (st : Bool × Mem), (∀ i, i ∈ l → i < dst.n0) →
        l.foldl (fun st idx => convertOne e ((dst.row dst.n0 r).element idx) ((src.row dst.n0 r).element idx) (width dst) st) st
        = l.foldl (fun st c => convertOne e (matrixPlace dst r c) (matrixPlace src r c) (width dst) st) st := by
      intro l
      induction l with
      | nil => intros; rfl
      | cons i l ih =>
        intro st h
        rw [List.foldl_cons, List.foldl_cons, ih _ fun j hj => h j (List.mem_cons_of_mem _ hj),
          row_place dst dst.n0 dst.n1 r i hcd rfl hr (h i (by simp)) hd, row_place src dst.n0 dst.n1 r i hcs hn hr (h i (by simp)) hs]
    exact this _ _ fun i hi => List.mem_range.1 hi
  have : ∀ (l : List Nat) (st : Bool × Mem), (∀ i, i ∈ l → i < dst.n1) →
      l.foldl (fun st r => ((st.1 && (convertVector e (dst.row dst.n0 r) (src.row dst.n0 r) st.2).1, (convertVector e (dst.row dst.n0 r) (src.row dst.n0 r) st.2).2) : Bool × Mem)) st
      = l.foldl (fun st r => ((List.range dst.n0).map fun c => (matrixPlace dst r c, matrixPlace src r c)).foldl
          (fun st p => convertOne e p.1 p.2 (width dst) st) st) st := by
    intro l
    induction l with
    | nil => intros; rfl
    | cons r l ih =>
      intro st h
      rw [List.foldl_cons, List.foldl_cons, ih _ fun j hj => h j (List.mem_cons_of_mem _ hj), hrow r st.2 (h r (by simp))]
      congr 1
      exact (foldPlaces_bool e (width dst) _ st.1 st.2).symm
  exact this _ _ fun i hi => List.mem_range.1 hi

theorem agree_iff (dst src : Any) (hd : dst.dims ≤ 3) (hs : src.dims ≤ 3) : agree dst src = true ↔ outline dst = outline src := by
  have h3 : ∀ n, n ≤ 3 → n = 0 ∨ n = 1 ∨ n = 2 ∨ n = 3 := by omega
  cases dc : dst.char <;> cases sc : src.char <;> rcases h3 _ hd with d | d | d | d <;> rcases h3 _ hs with s | s | s | s <;>
    simp [agree, outline, Any.shape, dc, sc, d, s, List.range_succ, Any.n, and_assoc]

end Verif.ArrayConvert
