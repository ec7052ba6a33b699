import Verif.Model.HttpChunk
import Verif.Spec.HttpChunk
import Verif.Proof.BufferedStream
import Verif.Props.Format
set_option linter.unusedSimpArgs false
set_option linter.unusedVariables false
/-! Proofs for C59. -/
namespace Verif.HttpChunk
open Verif.Model.IOBuffer Verif.Model.BufferedStream Verif.Proof.BufferedStream
open Verif.Spec.BufferedStream (AllOrNothing)
open Verif.Format (printf)
open Verif.Spec.HttpChunk (hexDigit chunkSize decode)

/-- The bytes of a chunk. -/
def Enc (ch : Bool) (bytes w : List Byte) : Prop :=
  (bytes = [] ∧ w = []) ∨ (ch = false ∧ w = bytes) ∨ (ch = true ∧ bytes ≠ [] ∧ ∃ head, w = head ++ bytes ++ [13, 10] ∧ ∀ rest, chunkSize none (head ++ rest) = some (bytes.length, rest))

/-- What is on the wire are chunks with the content `c`. -/
inductive Chunks (m : Bool) : List Byte → List Byte → Prop
  | nil : Chunks m [] []
  | snoc {c w : List Byte} {bytes v : List Byte} : Chunks m c w → Enc m bytes v → Chunks m (c ++ bytes) (w ++ v)

variable (lit : List Char → Nat) {ch : Bool}

/-! ## The size -/

def hexField : Verif.Spec.Format.Directive := ⟨[], [], none, .x⟩

theorem hexDigit_char : ∀ d < 16, hexDigit (UInt8.ofNat (Verif.Spec.Format.digitChar d).toNat) = some d := by decide

theorem chunkSize_digits (rest : List Byte) : ∀ (ds : List Nat), (∀ d ∈ ds, d < 16) → ∀ n,
    chunkSize (some n) (bytesOf (ds.map Verif.Spec.Format.digitChar) ++ 13 :: 10 :: rest) =
      some (ds.foldl (fun a d => 16 * a + d) n, rest)
  | [], _, n => rfl
  | d :: ds, h, n => by
    have := chunkSize_digits rest ds (fun x hx => h x (by simp [hx])) (16 * n + d)
    simp only [bytesOf, List.map_cons, List.cons_append] at this ⊢
    rw [chunkSize, hexDigit_char d (h d (by simp))]
    exact this

theorem foldl_ge : ∀ (ds : List Nat) (a : Nat), 16 ^ ds.length * a ≤ ds.foldl (fun a d => 16 * a + d) a
  | [], a => by simp
  | d :: ds, a => by
    have := foldl_ge ds (16 * a + d)
    rw [List.foldl_cons, List.length_cons, Nat.pow_succ]
    refine Nat.le_trans ?_ this
    rw [Nat.mul_assoc]
    exact Nat.mul_le_mul_left _ (by omega)

theorem sizeLine_spec (n : Nat) (hn : n < 2 ^ 32) : ∃ text, sizeLine lit n = some (true, text) ∧ (bytesOf text).length < 2 ^ 32 ∧
    ∀ rest, chunkSize none (bytesOf text ++ rest) = some (n, rest) := by
  have hwf : hexField.wf := ⟨by simp [hexField], by simp [hexField], by simp [hexField]⟩
  have hsm : hexField.small := ⟨by decide, by decide⟩
  obtain ⟨ds, hnum, _, hlead, hp⟩ := Verif.Format.c56_radix lit hexField hwf hsm (by decide) ⟨32, false⟩ (by unfold Verif.Spec.IntText.IsCxxType; simp) n
    (by unfold Verif.Spec.IntText.InRange Verif.Spec.IntText.minVal Verif.Spec.IntText.maxVal; simp; omega)
  have hf := Verif.Format.c56_formatted lit [.field hexField, .text ['\r', '\n']]
    (by
      intro p hp
      simp only [List.mem_cons, List.not_mem_nil, or_false] at hp
      rcases hp with rfl | rfl
      · exact hwf
      · show '%' ∉ ['\r', '\n']
        decide) [.scalar (.int ⟨32, false⟩ n)]
  have hv : ((n : Int) % 2 ^ 32).toNat = n := by omega
  obtain ⟨hne, hlt, hval⟩ := hnum
  have hbase : hexField.base = 16 := rfl
  rw [hbase] at hlt hval
  dsimp only at hval
  rw [hv] at hval
  have hp' : printf lit hexField.text [.scalar (.int ⟨32, false⟩ n)] = some (true, ds.map Verif.Spec.Format.digitChar) := hp
  rw [show Verif.Spec.Format.render [.field hexField, .text ['\r', '\n']] = ['%', 'x', '\r', '\n'] from rfl] at hf
  simp only [Verif.Spec.Format.expected, hp', Option.map_some, List.append_nil] at hf
  refine ⟨_, hf, ?_, ?_⟩
  · -- few digits
    cases ds with
    | nil => exact absurd rfl hne
    | cons d ds =>
      simp only [bytesOf, List.length_map, List.length_append, List.length_cons, List.length_nil]
      by_cases hd : d = 0
      · subst hd
        have := hlead (by simp [Verif.Spec.Format.Directive.minDigits, hexField, Verif.Spec.Format.Directive.zeros]) rfl
        injection this with _ this
        subst this
        simp
      · have hg := foldl_ge ds d
        unfold Verif.Spec.Format.value at hval
        rw [List.foldl_cons] at hval
        rw [show 16 * 0 + d = d by omega] at hval
        rw [hval] at hg
        have h1 : 16 ^ ds.length ≤ 16 ^ ds.length * d := Nat.le_mul_of_pos_right _ (by omega)
        have h2 : (16 : Nat) ^ ds.length < 16 ^ 8 := by omega
        have h3 := (Nat.pow_lt_pow_iff_right (a := 16) (by omega)).mp h2
        omega
  · intro rest
    cases ds with
    | nil => exact absurd rfl hne
    | cons d ds =>
      have h := chunkSize_digits rest ds (fun x hx => hlt x (by simp [hx])) d
      have hb : bytesOf (((d :: ds).map Verif.Spec.Format.digitChar) ++ ['\r', '\n']) ++ rest =
          UInt8.ofNat (Verif.Spec.Format.digitChar d).toNat :: (bytesOf (ds.map Verif.Spec.Format.digitChar) ++ 13 :: 10 :: rest) := by
        simp only [bytesOf, List.map_append, List.map_cons, List.map_nil, List.cons_append, List.append_assoc, List.nil_append]
        rfl
      rw [hb, chunkSize, hexDigit_char d (hlt d (by simp))]
      dsimp only
      rw [show 16 * (none : Option Nat).getD 0 + d = d by simp, h]
      unfold Verif.Spec.Format.value at hval
      rw [List.foldl_cons, show 16 * 0 + d = d by omega] at hval
      rw [hval]

/-! ## Flushing -/

/-- The socket is written at its end. -/
def AtEnd (d : Dev) : Prop := d.pos = d.data.length

theorem osWrite_end (d : Dev) (bs : List Byte) (hl : bs.length < 2 ^ 32) (ha : AllOrNothing d) (he : AtEnd d) :
    ∃ ok k d', osWrite d bs = (ok, k, d') ∧ AllOrNothing d' ∧ (d.wplan = [] → ok = true ∧ d'.wplan = []) ∧
      (ok = true → d'.data = d.data ++ bs ∧ AtEnd d') := by
  obtain ⟨ok, k, d', e, _, e2, e3, e4⟩ := osWrite_spec d bs hl
  refine ⟨ok, k, d', e, e2 ha, e3, ?_⟩
  intro ho
  obtain ⟨_, h1, h2⟩ := e4 ha ho
  have hd : d'.data = d.data ++ bs := by rw [h1, he, putAt_end]
  exact ⟨hd, by unfold AtEnd; rw [h2, hd, he, List.length_append]⟩

/-- A stream, in chunk mode or not, that holds `bytes`, with a socket that has got `data`. -/
structure Good (ch : Bool) (s : Stream) (bytes data : List Byte) : Prop where
  view : View s.buf bytes bytes.length
  max : 0 < s.buf.maxU
  chunk : s.chunk = ch
  calib : s.calib = 0
  all : AllOrNothing s.dev
  atEnd : AtEnd s.dev
  data : s.dev.data = data

theorem flush_spec (s : Stream) (bytes data : List Byte) (h : Good ch s bytes data) :
    ∃ ok s', s.flush lit = some (ok, s') ∧ (s.dev.wplan = [] → ok = true ∧ s'.dev.wplan = []) ∧
      (ok = true → s'.buf.maxU = s.buf.maxU ∧ ∃ w, Enc ch bytes w ∧ Good ch s' [] (data ++ w)) := by
  unfold Stream.flush
  dsimp only
  rw [h.view.used]
  by_cases hb : bytes = []
  · subst hb
    rw [if_neg (by simp)]
    dsimp only
    unfold flushBuf
    rw [h.view.used, if_pos List.length_nil]
    dsimp only
    rw [if_neg (by simp)]
    exact ⟨true, _, rfl, fun hw => ⟨rfl, hw⟩, fun _ => ⟨rfl, [], Or.inl ⟨rfl, rfl⟩, by
      rw [List.append_nil]; exact ⟨h.view, h.max, h.chunk, h.calib, h.all, h.atEnd, h.data⟩⟩⟩
  · have hpos : bytes.length > 0 := List.length_pos_iff.mpr hb
    cases ch with
    | false =>
      have hsmall : bytes.length < 2 ^ 32 := Nat.lt_of_le_of_lt h.view.len_le h.view.small
      rw [if_neg (by rw [h.chunk]; simp)]
      dsimp only
      unfold flushBuf
      rw [h.view.used, if_neg (by omega), h.view.loadAll]
      dsimp only
      obtain ⟨ok2, k2, d2, e2, a2, p2, w2⟩ := osWrite_end s.dev bytes hsmall h.all h.atEnd
      rw [e2]
      dsimp only
      cases ok2 with
      | false => exact ⟨false, _, rfl, fun hw => by have := (p2 hw).1; simp at this, fun h => by simp at h⟩
      | true =>
        obtain ⟨hd2, he2⟩ := w2 rfl
        rw [if_pos rfl]
        dsimp only
        rw [if_neg (by rw [h.chunk]; simp)]
        refine ⟨true, _, rfl, fun hw => p2 hw, fun _ => ⟨rfl, bytes, Or.inr (Or.inl ⟨rfl, rfl⟩), ?_⟩⟩
        exact ⟨h.view.empty, h.max, h.chunk, h.calib, a2, he2, by
          show d2.data = _
          rw [hd2, h.data]⟩
    | true =>
    have hsmall : bytes.length < 2 ^ 32 := Nat.lt_of_le_of_lt h.view.len_le h.view.small
    rw [if_pos ⟨h.chunk, hpos⟩]
    obtain ⟨text, ht, htl, hts⟩ := sizeLine_spec lit bytes.length hsmall
    rw [ht]
    dsimp only
    rw [if_pos rfl]
    obtain ⟨ok1, k1, d1, e1, a1, p1, w1⟩ := osWrite_end s.dev (bytesOf text) htl h.all h.atEnd
    rw [e1]
    dsimp only
    cases ok1 with
    | false => exact ⟨false, _, rfl, fun hw => by have := (p1 hw).1; simp at this, fun h => by simp at h⟩
    | true =>
      obtain ⟨hd1, he1⟩ := w1 rfl
      dsimp only
      unfold flushBuf
      rw [h.view.used, if_neg (by omega), h.view.loadAll]
      dsimp only
      obtain ⟨ok2, k2, d2, e2, a2, p2, w2⟩ := osWrite_end d1 bytes hsmall a1 he1
      rw [e2]
      dsimp only
      cases ok2 with
      | false => exact ⟨false, _, rfl, fun hw => by have := (p2 (p1 hw).2).1; simp at this, fun h => by simp at h⟩
      | true =>
        obtain ⟨hd2, he2⟩ := w2 rfl
        rw [if_pos rfl]
        dsimp only
        rw [if_pos ⟨h.chunk, hpos⟩]
        obtain ⟨ok3, k3, d3, e3, a3, p3, w3⟩ := osWrite_end d2 [13, 10] (by decide) a2 he2
        rw [e3]
        refine ⟨ok3, _, rfl, fun hw => p3 (p2 (p1 hw).2).2, ?_⟩
        intro ho
        obtain ⟨hd3, he3⟩ := w3 ho
        refine ⟨rfl, bytesOf text ++ bytes ++ [13, 10], Or.inr (Or.inr ⟨rfl, hb, _, rfl, hts⟩), ?_⟩
        exact ⟨h.view.empty, h.max, h.chunk, h.calib, a3, he3, by
          show d3.data = _
          rw [hd3, hd2, hd1, h.data]
          simp only [List.append_assoc]⟩

/-! ## A history -/

theorem writeLoop_spec (data : List Byte) : ∀ (fuel : Nat) (s : Stream) (bs bytes c w : List Byte), Good ch s bytes (data ++ w) →
    Chunks ch c w → 2 * bs.length + (if bytes.length = s.buf.maxU then 1 else 0) < fuel →
    ∃ ok s', s.writeLoop lit fuel bs = some (ok, s') ∧ (s.dev.wplan = [] → ok = true ∧ s'.dev.wplan = []) ∧
      (ok = true → ∃ bytes' c' w', Good ch s' bytes' (data ++ w') ∧ Chunks ch c' w' ∧ c' ++ bytes' = c ++ bytes ++ bs) := by
  intro fuel
  induction fuel with
  | zero => intro s bs bytes c w _ _ hf; omega
  | succ fuel ih =>
    intro s bs bytes c w hg hc hf
    unfold Stream.writeLoop
    by_cases h0 : bs.length = 0
    · rw [if_pos h0]
      have : bs = [] := List.length_eq_zero_iff.mp h0
      subst this
      exact ⟨true, s, rfl, fun hw => ⟨rfl, hw⟩, fun _ => ⟨bytes, c, w, hg, hc, by simp⟩⟩
    · rw [if_neg h0]
      obtain ⟨b1, e1, hv1, hm1⟩ := hg.view.write bs
      simp only [e1]
      have hll := hg.view.len_le
      have hmax := hg.max
      generalize hn : min bs.length (s.buf.maxU - bytes.length) = n at *
      have htl : (bs.take n).length = n := by simp; omega
      have hdl : (bs.drop n).length = bs.length - n := by simp
      have hg1 : Good ch { s with buf := b1 } (bytes ++ bs.take n) (data ++ w) :=
        ⟨hv1, by show 0 < b1.maxU; omega, hg.chunk, hg.calib, hg.all, hg.atEnd, hg.data⟩
      by_cases hfull : n = bs.length
      · rw [if_neg (by simpa using hfull)]
        obtain ⟨ok, s', r1, r2, r3⟩ := ih { s with buf := b1 } (bs.drop n) _ c w hg1 hc (by
          rw [hdl]; dsimp only; split <;> split at hf <;> omega)
        refine ⟨ok, s', r1, r2, ?_⟩
        intro ho
        obtain ⟨bytes', c', w', q1, q2, q3⟩ := r3 ho
        exact ⟨bytes', c', w', q1, q2, by rw [q3]; simp only [List.append_assoc, List.take_append_drop]⟩
      · rw [if_pos (by simpa using hfull)]
        obtain ⟨ok2, s2, f1, f2, f3⟩ := flush_spec lit _ _ _ hg1
        rw [f1]
        cases ok2 with
        | false => exact ⟨false, s2, rfl, fun hw => by have := (f2 hw).1; simp at this, fun h => by simp at h⟩
        | true =>
          dsimp only
          obtain ⟨hm2, v, hv, hg2⟩ := f3 rfl
          rw [List.append_assoc] at hg2
          obtain ⟨ok, s', r1, r2, r3⟩ := ih s2 (bs.drop n) [] (c ++ (bytes ++ bs.take n)) (w ++ v) hg2 (hc.snoc hv) (by
            have hm2' : s2.buf.maxU = b1.maxU := hm2
            rw [hdl, if_neg (by simp; omega)]; split at hf <;> omega)
          refine ⟨ok, s', r1, fun hw => r2 (f2 hw).2, ?_⟩
          intro ho
          obtain ⟨bytes', c', w', q1, q2, q3⟩ := r3 ho
          exact ⟨bytes', c', w', q1, q2, by rw [q3]; simp only [List.append_assoc, List.append_nil, List.nil_append, List.take_append_drop]⟩

theorem putRaw_spec {b : Buf} {bytes : List Byte} (h : View b bytes bytes.length) (c : Byte) (hl : bytes.length < b.maxU) :
    ∃ b', b.putRaw c = some b' ∧ View b' (bytes ++ [c]) (bytes ++ [c]).length ∧ b'.maxU = b.maxU := by
  obtain ⟨b', e, hv, hm⟩ := h.write [c]
  rw [show min [c].length (b.maxU - bytes.length) = 1 by simp only [List.length_cons, List.length_nil]; omega] at e hv
  refine ⟨b', ?_, by simpa using hv, hm⟩
  unfold Buf.write at e
  have hpos := h.pos
  rw [show (if [c].length > b.amountLeft then b.amountLeft else [c].length) = 1 by
    rw [if_neg (by simp only [List.length_cons, List.length_nil]; omega)]; rfl] at e
  dsimp only at e
  rw [if_pos (by omega), show [c].take 1 = [c] from rfl] at e
  unfold Buf.putRaw
  cases hst : b.store b.ptr [c] with
  | none => rw [hst] at e; simp at e
  | some b2 =>
    rw [hst] at e
    dsimp only at e ⊢
    injection e with e
    injection e with _ e
    rw [e]

/-- What an operation writes. -/
def Op.bytes : Op → List Byte
  | .write bs => bs
  | .put c => [c]
  | .flush => []

def Op.small : Op → Prop
  | .write bs => bs.length < 2 ^ 32
  | _ => True

theorem step_spec (data : List Byte) (s : Stream) (op : Op) (hop : op.small) (bytes c w : List Byte) (hg : Good ch s bytes (data ++ w))
    (hc : Chunks ch c w) :
    ∃ ok s', s.step lit op = some (ok, s') ∧ (s.dev.wplan = [] → ok = true ∧ s'.dev.wplan = []) ∧
      (ok = true → ∃ bytes' c' w', Good ch s' bytes' (data ++ w') ∧ Chunks ch c' w' ∧ c' ++ bytes' = c ++ bytes ++ op.bytes ∧
        (op = .flush → bytes' = [])) := by
  cases op with
  | write bs =>
    unfold Stream.step Stream.write
    dsimp only
    have hm := hg.max
    rw [if_pos (by rw [hg.calib, Nat.zero_mul, Nat.zero_mod]; exact hm)]
    obtain ⟨ok, s', r1, r2, r3⟩ := writeLoop_spec lit data (2 * bs.length + 2) s bs bytes c w hg hc (by split <;> omega)
    refine ⟨ok, s', r1, r2, ?_⟩
    intro ho
    obtain ⟨bytes', c', w', q1, q2, q3⟩ := r3 ho
    exact ⟨bytes', c', w', q1, q2, q3, by simp⟩
  | flush =>
    unfold Stream.step
    dsimp only
    obtain ⟨ok, s', f1, f2, f3⟩ := flush_spec lit s bytes _ hg
    refine ⟨ok, s', f1, f2, ?_⟩
    intro ho
    obtain ⟨_, v, hv, hg2⟩ := f3 ho
    rw [List.append_assoc] at hg2
    exact ⟨[], c ++ bytes, w ++ v, hg2, hc.snoc hv, by simp [Op.bytes], fun _ => rfl⟩
  | put x =>
    unfold Stream.step Stream.put
    dsimp only
    have hpos := hg.view.pos
    have hmax := hg.max
    by_cases hfull : s.buf.amountLeft = 0
    · rw [if_pos hfull]
      obtain ⟨ok, s', f1, f2, f3⟩ := flush_spec lit s bytes _ hg
      rw [f1]
      cases ok with
      | false => exact ⟨false, s', rfl, fun hw => by have := (f2 hw).1; simp at this, fun h => by simp at h⟩
      | true =>
        dsimp only
        obtain ⟨hm2, v, hv, hg2⟩ := f3 rfl
        rw [List.append_assoc] at hg2
        have hpos2 := hg2.view.pos
        have hmax2 := hg2.max
        simp only [List.length_nil] at hpos2
        rw [if_neg (by omega)]
        obtain ⟨b', e, hvb, hmb⟩ := putRaw_spec hg2.view x (by simp only [List.length_nil]; omega)
        rw [e]
        refine ⟨true, _, rfl, fun hw => ⟨rfl, (f2 hw).2⟩, fun _ => ⟨[x], c ++ bytes, w ++ v, ?_, hc.snoc hv, rfl, by simp⟩⟩
        exact ⟨hvb, by show 0 < b'.maxU; omega, hg2.chunk, hg2.calib, hg2.all, hg2.atEnd, hg2.data⟩
    · rw [if_neg hfull]
      obtain ⟨b', e, hvb, hmb⟩ := putRaw_spec hg.view x (by omega)
      rw [e]
      refine ⟨true, _, rfl, fun hw => ⟨rfl, hw⟩, fun _ => ⟨bytes ++ [x], c, w, ?_, hc, by simp [Op.bytes], by simp⟩⟩
      exact ⟨hvb, by show 0 < b'.maxU; omega, hg.chunk, hg.calib, hg.all, hg.atEnd, hg.data⟩

theorem run_total (data : List Byte) : ∀ (ops : List Op) (s : Stream) (bytes c w : List Byte), (∀ op ∈ ops, op.small) →
    Good ch s bytes (data ++ w) → Chunks ch c w → s.dev.wplan = [] →
    ∃ os s', s.run lit ops = some (os, s') ∧ (∀ o ∈ os, o = true) ∧ s'.dev.wplan = [] := by
  intro ops
  induction ops with
  | nil => intro s bytes c w _ _ _ hw; exact ⟨[], s, rfl, by simp, hw⟩
  | cons op ops ih =>
    intro s bytes c w hs hg hc hw
    obtain ⟨ok, s1, e1, e2, e3⟩ := step_spec lit data s op (hs op (by simp)) bytes c w hg hc
    obtain ⟨ho, hw1⟩ := e2 hw
    subst ho
    obtain ⟨bytes', c', w', q1, q2, _⟩ := e3 rfl
    obtain ⟨os, s2, r1, r2, r3⟩ := ih s1 bytes' c' w' (fun o h => hs o (by simp [h])) q1 q2 hw1
    refine ⟨true :: os, s2, by simp only [Stream.run, e1, r1], ?_, r3⟩
    intro o ho
    rcases List.mem_cons.mp ho with h | h
    · exact h
    · exact r2 o h

theorem run_sound (data : List Byte) : ∀ (ops : List Op) (s : Stream) (bytes c w : List Byte), (∀ op ∈ ops, op.small) →
    Good ch s bytes (data ++ w) → Chunks ch c w → ∀ os s', s.run lit ops = some (os, s') → (∀ o ∈ os, o = true) →
    ∃ bytes' c' w', Good ch s' bytes' (data ++ w') ∧ Chunks ch c' w' ∧ c' ++ bytes' = c ++ bytes ++ (ops.map Op.bytes).flatten ∧
      (ops.getLast? = some .flush → bytes' = []) := by
  intro ops
  induction ops with
  | nil =>
    intro s bytes c w _ hg hc os s' h _
    simp only [Stream.run, Option.some.injEq, Prod.mk.injEq] at h
    obtain ⟨_, rfl⟩ := h
    exact ⟨bytes, c, w, hg, hc, by simp, by simp⟩
  | cons op ops ih =>
    intro s bytes c w hs hg hc os s' h hos
    obtain ⟨ok, s1, e1, e2, e3⟩ := step_spec lit data s op (hs op (by simp)) bytes c w hg hc
    simp only [Stream.run, e1] at h
    cases hr : s1.run lit ops with
    | none => rw [hr] at h; simp at h
    | some r =>
      obtain ⟨os1, s2⟩ := r
      rw [hr] at h
      simp only [Option.some.injEq, Prod.mk.injEq] at h
      obtain ⟨h1, h2⟩ := h
      subst h1; subst h2
      have ho := hos ok (by simp)
      obtain ⟨bytes', c', w', q1, q2, q3, q4⟩ := e3 ho
      obtain ⟨bytes2, c2, w2, r1, r2, r3, r4⟩ := ih s1 bytes' c' w' (fun o h => hs o (by simp [h])) q1 q2 os1 s2 hr (fun o h => hos o (by simp [h]))
      refine ⟨bytes2, c2, w2, r1, r2, by rw [r3, q3]; simp only [List.map_cons, List.flatten_cons, List.append_assoc], ?_⟩
      intro hl
      cases ops with
      | nil =>
        simp only [List.getLast?_singleton, Option.some.injEq] at hl
        simp only [Stream.run, Option.some.injEq, Prod.mk.injEq] at hr
        obtain ⟨hr1, hr2⟩ := hr
        have hb := q4 hl
        subst hb
        -- the buffer of the same stream
        have := r1.view.used
        rw [← hr2, q1.view.used] at this
        exact (List.length_eq_zero_iff.mp this.symm)
      | cons o os' => exact r4 (by rw [← hl]; simp [List.getLast?_cons])

/-! ## Decoding -/

theorem decode_mono : ∀ (fuel : Nat) (w : List Byte) (r), decode fuel w = some r → ∀ k, decode (fuel + k) w = some r := by
  intro fuel
  induction fuel with
  | zero => intro w r h; simp [decode] at h
  | succ fuel ih =>
    intro w r h k
    rw [show fuel + 1 + k = (fuel + k) + 1 by omega]
    rw [decode] at h ⊢
    cases hc : chunkSize none w with
    | none => rw [hc] at h; simp at h
    | some p =>
      obtain ⟨n, rest⟩ := p
      rw [hc] at h
      dsimp only at h ⊢
      by_cases hn : n = 0
      · rw [if_pos hn] at h ⊢
        exact h
      · rw [if_neg hn] at h ⊢
        split at h
        · rename_i hif
          rw [if_pos hif]
          cases hd : decode fuel (rest.drop (n + 2)) with
          | none => rw [hd] at h; simp at h
          | some q =>
            rw [hd] at h
            rw [ih _ _ hd k]
            exact h
        · simp at h

theorem decode_enc (bytes v : List Byte) (h : Enc true bytes v) (tail : List Byte) (fuel : Nat) (c rest : List Byte)
    (hd : decode fuel tail = some (c, rest)) : decode (fuel + 1) (v ++ tail) = some (bytes ++ c, rest) := by
  rcases h with ⟨rfl, rfl⟩ | ⟨hc, _⟩ | ⟨_, hb, head, rfl, hh⟩
  · exact decode_mono _ _ _ hd 1
  · simp at hc
  · rw [decode, show head ++ bytes ++ [13, 10] ++ tail = head ++ (bytes ++ ([13, 10] ++ tail)) by simp, hh]
    dsimp only
    have hn : bytes.length ≠ 0 := fun h => hb (List.length_eq_zero_iff.mp h)
    have ht : (bytes ++ ([13, 10] ++ tail)).take bytes.length = bytes := List.take_left
    have hdr : (bytes ++ ([13, 10] ++ tail)).drop bytes.length = [13, 10] ++ tail := List.drop_left
    have hdr2 : (bytes ++ ([13, 10] ++ tail)).drop (bytes.length + 2) = tail := by rw [← List.drop_drop, hdr]; rfl
    rw [if_neg hn, if_pos (by rw [ht, hdr]; exact ⟨rfl, rfl⟩), ht, hdr2, hd]
    rfl

theorem decode_chunks (c w : List Byte) (h : Chunks true c w) : ∀ (tail : List Byte) (fuel : Nat) (c' rest : List Byte),
    decode fuel tail = some (c', rest) → ∃ k, decode (fuel + k) (w ++ tail) = some (c ++ c', rest) ∧ k ≤ w.length := by
  induction h with
  | nil => intro tail fuel c' rest hd; exact ⟨0, hd, by simp⟩
  | snoc hc he ih =>
    rename_i c w bytes v
    intro tail fuel c' rest hd
    by_cases hb : bytes = []
    · rcases he with ⟨_, rfl⟩ | ⟨h, _⟩ | ⟨_, h, _⟩
      · subst hb
        obtain ⟨k, e, hk⟩ := ih tail fuel c' rest hd
        exact ⟨k, by simpa using e, by simpa using hk⟩
      · simp at h
      · exact absurd hb h
    · have h1 := decode_enc bytes v he tail fuel c' rest hd
      obtain ⟨k, e, hk⟩ := ih (v ++ tail) (fuel + 1) (bytes ++ c') rest h1
      refine ⟨k + 1, ?_, ?_⟩
      · rw [show fuel + (k + 1) = fuel + 1 + k by omega, List.append_assoc, e, List.append_assoc]
      · have hv : 0 < v.length := by
          rcases he with ⟨h, _⟩ | ⟨h, _⟩ | ⟨_, _, head, rfl, _⟩
          · exact absurd h hb
          · simp at h
          · simp only [List.length_append, List.length_cons, List.length_nil]; omega
        rw [List.length_append]
        omega

theorem chunks_plain (c w : List Byte) (h : Chunks false c w) : w = c := by
  induction h with
  | nil => rfl
  | snoc hc he ih =>
    rcases he with ⟨rfl, rfl⟩ | ⟨_, rfl⟩ | ⟨h, _⟩
    · rw [ih]
    · rw [ih]
    · simp at h

theorem decode_last (rest : List Byte) : decode 1 ([48, 13, 10, 13, 10] ++ rest) = some ([], rest) := rfl

/-! ## Reading -/

theorem readLoop_length (bufferSize : Nat) (hb : 0 < bufferSize) : ∀ (plan : List Reading) (n : Nat) (data out : List Byte) (u : Int)
    (o rest : List Byte), readLoop bufferSize false plan n (min n bufferSize) data out = some (u, o, rest) →
    ∃ k : Nat, k ≤ n ∧ u = n - k ∧ o = out ++ data.take k ∧ rest = data.drop k := by
  intro plan
  induction plan with
  | nil =>
    intro n data out u o rest h
    rw [readLoop] at h
    by_cases h0 : min n bufferSize = 0
    · rw [if_pos h0] at h
      simp only [Option.some.injEq, Prod.mk.injEq] at h
      obtain ⟨h1, h2, h3⟩ := h
      exact ⟨0, by omega, by omega, by simp [h2], by simp [h3]⟩
    · rw [if_neg h0] at h
      simp at h
  | cons r plan ih =>
    intro n data out u o rest h
    rw [readLoop] at h
    by_cases h0 : min n bufferSize = 0
    · rw [if_pos h0] at h
      simp only [Option.some.injEq, Prod.mk.injEq] at h
      obtain ⟨h1, h2, h3⟩ := h
      exact ⟨0, by omega, by omega, by simp [h2], by simp [h3]⟩
    · rw [if_neg h0] at h
      dsimp only at h
      have hn : (n : Int) > 0 := by omega
      simp only [Bool.false_eq_true, false_and, if_false] at h
      rw [if_pos hn, if_pos hn] at h
      have hpl : (data.take (min r.k (min n bufferSize))).length ≤ n := by
        rw [List.length_take]; omega
      generalize hp : data.take (min r.k (min n bufferSize)) = piece at *
      have htake : data.take piece.length = piece := by
        rw [← hp, List.length_take]
        rcases Nat.le_total (min r.k (min n bufferSize)) data.length with hle | hle
        · rw [Nat.min_eq_left hle]
        · rw [Nat.min_eq_right hle, List.take_length, List.take_of_length_le hle]
      have hdrop : data.drop (min r.k (min n bufferSize)) = data.drop piece.length := by
        rw [← hp, List.length_take]
        rcases Nat.le_total (min r.k (min n bufferSize)) data.length with hle | hle
        · rw [Nat.min_eq_left hle]
        · rw [Nat.min_eq_right hle, List.drop_length, List.drop_eq_nil_of_le hle]
      rw [hdrop] at h
      split at h
      · split at h
        · rw [show ((n : Int) - piece.length) = ((n - piece.length : Nat) : Int) by omega, Int.toNat_natCast] at h
          obtain ⟨k, k1, k2, k3, k4⟩ := ih _ _ _ _ _ _ h
          refine ⟨piece.length + k, by omega, by omega, ?_, ?_⟩
          · rw [k3, List.append_assoc, List.take_add, htake]
          · rw [k4, List.drop_drop]
        · simp only [Option.some.injEq, Prod.mk.injEq] at h
          obtain ⟨h1, h2, h3⟩ := h
          exact ⟨piece.length, hpl, by omega, by rw [← h2, htake], h3.symm⟩
      · simp only [Option.some.injEq, Prod.mk.injEq] at h
        obtain ⟨h1, h2, h3⟩ := h
        rename_i hno
        have hz : piece.length = 0 := by
          rcases Nat.eq_zero_or_pos piece.length with hz | hz
          · exact hz
          · exact absurd (Or.inr hz) hno
        rw [hz, List.drop_zero] at h3
        exact ⟨0, by omega, by omega, by simp [h2], by simp [h3]⟩

end Verif.HttpChunk
