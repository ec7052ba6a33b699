import Verif.Proof.BufferedStream
namespace Verif.Proof.BufferedFile
open Verif.Model.IOBuffer Verif.Model.BufferedStream Verif.Spec.BufferedStream
open Verif.Proof.BufferedStream

attribute [local irreducible] sub32 add32

/-- The device transfers everything and the buffer has `n` bytes. -/
structure Base (n : Nat) (s : Single) : Prop where
  rp : s.dev.rplan = []
  wp : s.dev.wplan = []
  cr : s.calR = 4
  cw : s.calW = 4
  mx : s.buf.maxU = n
  pos : 0 < n
  small : n < 2 ^ 32

/-- Nothing is in the buffer. -/
structure Settled (f : FileS) (s : Single) : Prop where
  v : View s.buf [] 0
  data : s.dev.data = f.data
  cur : s.dev.pos = f.cur

structure WInv (f : FileS) (s : Single) : Prop where
  mode : s.wmode = true
  ex : ∃ bytes, View s.buf bytes bytes.length ∧ putAt s.dev.data s.dev.pos bytes = f.data ∧
    s.dev.pos + bytes.length = f.cur

structure RInv (fresh : Bool) (f : FileS) (s : Single) : Prop where
  mode : s.wmode = false
  ex : ∃ p0 pre bytes pos stale, RState f.data p0 s.buf s.dev pre bytes pos stale ∧
    f.cur = p0 + (pre ++ bytes.take pos ++ stale).length ∧ (fresh = true → stale = [])

structure SInv (c : Ctx) (f : FileS) (s : Single) : Prop where
  base : Base c.bufSize s
  mode : s.wmode = c.wmode
  inv : WInv f s ∨ RInv c.fresh f s

theorem Settled.w {f s} (h : Settled f s) (hm : s.wmode = true) : WInv f s :=
  ⟨hm, [], h.v, by rw [putAt_nil]; exact h.data, h.cur⟩

theorem Settled.r {f s} (h : Settled f s) (hm : s.wmode = false) (fr : Bool) : RInv fr f s :=
  ⟨hm, f.cur, [], [], 0, [], ⟨h.v, .inl rfl, h.data, h.cur, by simp⟩, rfl, fun _ => rfl⟩

theorem Settled.inv {f s c} (h : Settled f s) (hb : Base c.bufSize s) (hm : s.wmode = c.wmode) :
    SInv c f s := by
  refine ⟨hb, hm, ?_⟩
  cases hw : s.wmode with
  | true => exact .inl (h.w hw)
  | false => exact .inr (h.r hw _)

theorem RInv.resync {n fr f s} (hb : Base n s) (h : RInv fr f s) (m : Bool) :
    Base n { s with buf := (resync s.buf s.dev).1, dev := (resync s.buf s.dev).2, wmode := m } ∧
    Settled f { s with buf := (resync s.buf s.dev).1, dev := (resync s.buf s.dev).2,
                       wmode := m } := by
  obtain ⟨hm, p0, pre, bytes, pos, stale, ⟨hv, hst, t1, t2, t3⟩, hc, _⟩ := h
  have hpl := hv.pos_le
  simp only [List.length_append, List.length_take] at hc t2
  unfold Verif.Model.BufferedStream.resync
  rw [hv.used, hv.left]
  by_cases h0 : bytes.length > 0
  · rw [if_pos h0]
    refine ⟨⟨hb.rp, hb.wp, hb.cr, hb.cw, hb.mx, hb.pos, hb.small⟩, ⟨hv.empty, t1, ?_⟩⟩
    show s.dev.pos - (bytes.length - pos) = f.cur
    rcases hst with h | h
    · simp only [h, List.length_nil] at hc t2; omega
    · omega
  · rw [if_neg h0]
    have : bytes = [] := List.length_eq_zero_iff.mp (by omega)
    subst this
    refine ⟨⟨hb.rp, hb.wp, hb.cr, hb.cw, hb.mx, hb.pos, hb.small⟩, ⟨?_, t1, ?_⟩⟩
    · have : pos = 0 := by simpa using hpl
      rw [this] at hv; exact hv
    · show s.dev.pos = f.cur
      simp only [List.length_nil] at hc t2; omega

theorem toWrite_spec {c f s} (h : SInv c f s) :
    Base c.bufSize s.toWrite ∧ WInv f s.toWrite := by
  unfold Single.toWrite
  rcases h.inv with hw | hr
  · rw [if_pos hw.mode]; exact ⟨h.base, hw⟩
  · rw [if_neg (by rw [hr.mode]; simp)]
    have := hr.resync h.base true
    exact ⟨this.1, this.2.w rfl⟩

theorem flushW {n f s} (hb : Base n s) (hw : WInv f s) :
    ∃ b d, flushBuf s.buf s.dev = some (true, b, d) ∧
      Base n { s with buf := b, dev := d } ∧ Settled f { s with buf := b, dev := d } := by
  obtain ⟨hm, bytes, hv, h1, h2⟩ := hw
  obtain ⟨ok, b', d', bytes', e, g1, g2, g3, g4, g5, g6, g7⟩ := flushBuf_spec hv s.dev
  obtain ⟨rfl, hwp⟩ := g5 hb.wp
  have := g6 rfl; subst this
  have ha : AllOrNothing s.dev := by intro k hk; rw [hb.wp] at hk; simp at hk
  obtain ⟨i1, i2⟩ := g7 ha rfl
  exact ⟨b', d', e, ⟨by rw [← hb.rp]; exact g3, hwp, hb.cr, hb.cw, g2.trans hb.mx,
    hb.pos, hb.small⟩, ⟨g1, by rw [← h1]; exact i1, by rw [← h2]; exact i2⟩⟩

theorem flush_spec {c f s} (h : SInv c f s) :
    ∃ s', s.flush = some (true, s') ∧ Base c.bufSize s' ∧ Settled f s' ∧ s'.wmode = true := by
  obtain ⟨hb, hw⟩ := toWrite_spec h
  obtain ⟨b, d, e, h1, h2⟩ := flushW hb hw
  exact ⟨{ s.toWrite with buf := b, dev := d }, by simp only [Single.flush, e], h1, h2, hw.mode⟩

theorem toRead_spec {c f s} (h : SInv c f s) :
    ∃ s', s.toRead = some (true, s') ∧ Base c.bufSize s' ∧
      RInv (c.fresh || c.wmode) f s' := by
  unfold Single.toRead
  rcases h.inv with hw | hr
  · rw [if_pos hw.mode]
    obtain ⟨s', e, h1, h2, h3⟩ := flush_spec h
    simp only [e, if_true]
    refine ⟨_, rfl, ⟨h1.rp, h1.wp, h1.cr, h1.cw, h1.mx, h1.pos, h1.small⟩, ?_⟩
    exact Settled.r (s := { s' with wmode := false }) ⟨h2.v, h2.data, h2.cur⟩ rfl _
  · rw [if_neg (by rw [hr.mode]; simp)]
    have hc : c.wmode = false := by rw [← h.mode]; exact hr.mode
    refine ⟨s, rfl, h.base, ?_⟩
    rw [hc, Bool.or_false]; exact hr

theorem flushAndResync_spec {c f s} (h : SInv c f s) :
    ∃ s', s.flushAndResync = some (true, s') ∧ Base c.bufSize s' ∧ Settled f s' ∧
      s'.wmode = c.wmode := by
  unfold Single.flushAndResync
  rcases h.inv with hw | hr
  · rw [if_pos hw.mode]
    obtain ⟨s', e, h1, h2, h3⟩ := flush_spec h
    exact ⟨s', e, h1, h2, by rw [h3, ← h.mode, hw.mode]⟩
  · rw [if_neg (by rw [hr.mode]; simp)]
    have := hr.resync h.base s.wmode
    exact ⟨_, rfl, this.1, this.2, h.mode⟩

/-- Flushing only if there is something to flush. -/
theorem flushIf_spec {c f s} (h : SInv c f s) (hw : WInv f s) :
    ∃ s', (if s.buf.usedSize > 0 then s.flush else some (true, s)) = some (true, s') ∧
      Base c.bufSize s' ∧ Settled f s' ∧ s'.wmode = true := by
  by_cases h0 : s.buf.usedSize > 0
  · rw [if_pos h0]; exact flush_spec h
  · rw [if_neg h0]
    obtain ⟨hm, bytes, hv, h1, h2⟩ := hw
    rw [hv.used] at h0
    have : bytes = [] := List.length_eq_zero_iff.mp (by omega)
    subst this
    rw [putAt_nil] at h1
    exact ⟨s, rfl, h.base, ⟨hv, h1, h2⟩, hm⟩

theorem fileWrite_eq (f : FileS) (bs : List Byte) :
    fileWrite f bs = ⟨putAt f.data f.cur bs, f.cur + bs.length⟩ := by
  unfold fileWrite putAt
  by_cases h : bs = []
  · simp [h]
  · rw [if_neg h, if_neg h]

theorem View.seek {b bytes pos} (h : View b bytes pos) (p : Nat) (hp : p ≤ bytes.length) :
    View (b.seek p).2 bytes p ∧ (b.seek p).2.maxU = b.maxU := by
  unfold Buf.seek
  rw [h.used, if_pos hp]
  have hl := h.len
  have hs : sub32 b.maxU p = b.maxU - p := sub32_eq (by omega)
  refine ⟨?_, rfl⟩
  constructor
  · exact h.gran
  · exact h.size
  · exact h.small
  · show b.fillLeft ≤ sub32 b.maxU p; rw [hs]; omega
  · show b.maxU = sub32 b.maxU p + p; rw [hs]; omega
  · exact hl
  · exact rfl
  · exact h.mem

theorem step_file {c f s} (op : SOp) (h : SInv c f s) (ha : FileAllowed c f op) :
    ∃ s', s.step op = some ((fileStep f op).1, s') ∧ SInv (ctxStep c op) (fileStep f op).2 s' := by
  cases op with
  | read n =>
    obtain ⟨s1, e1, hb, hr⟩ := toRead_spec h
    obtain ⟨hm, p0, pre, bytes, pos, stale, ⟨hv, hst, ht⟩, hc, hfr⟩ := hr
    obtain ⟨hlen, hn⟩ := ha
    obtain ⟨ok, out, b', d', pre', bytes', pos', stale', e, g1, g2, g3, g4, g5, g6, g7, g8, g9⟩ :=
      bufRead_spec s1.calR f.data p0 _ s1.buf s1.dev n pre bytes pos stale hv hst ht rfl
    have hpl := hv.pos_le
    have hroom : n ≤ bytes.length - pos + (f.data.length - s1.dev.pos) := by
      have t2 := ht.2.1
      have t3 := congrArg List.length ht.2.2
      simp only [List.length_append, List.length_take, List.length_drop] at hc t2 t3
      rcases hst with hs | hs
      · simp only [hs, List.length_nil] at hc t2 t3; omega
      · omega
    obtain ⟨rfl, hol, hrp⟩ := g8 hb.rp hroom
    have g6' := g6 rfl
    have hout : out = (f.data.drop f.cur).take n := by
      obtain ⟨tl, htl⟩ := g7
      have : (f.data.drop f.cur) = out ++ tl := by
        rw [hc, ← List.drop_drop, ← htl, List.append_assoc (_ ++ _ ++ _) out tl, List.drop_left]
      rw [this, ← hol, List.take_left]
    refine ⟨{ s1 with buf := b', dev := d' }, ?_, ?_⟩
    · simp only [Single.step, e1, if_true, e, fileStep, hout]
    · refine ⟨⟨hrp, by rw [← hb.wp]; exact g5, hb.cr, hb.cw, g4.trans hb.mx,
        hb.pos, hb.small⟩, hm, .inr ⟨hm, p0, pre', bytes', pos', stale', ⟨g1, g2, g3⟩, ?_, ?_⟩⟩
      · show f.cur + ((f.data.drop f.cur).take n).length = _
        rw [← hout, ← g6', List.length_append, hc]; omega
      · intro hfresh
        simp only [ctxStep, Bool.and_eq_true, decide_eq_true_eq] at hfresh
        refine g9 rfl (hfr hfresh.1) ?_ ?_
        · rw [hb.cr, hb.mx]; omega
        · rw [hb.mx]; exact hb.small
  | write bs =>
    obtain ⟨hb, hw⟩ := toWrite_spec h
    obtain ⟨hm, bytes, hv, h1, h2⟩ := hw
    obtain ⟨ok, k, b', d', bytes', e, g1, g2, g3, g4, g5, g6⟩ :=
      bufWrite_spec s.toWrite.calW s.toWrite.buf s.toWrite.dev bs bytes hv
        (by rw [hb.mx]; exact hb.pos) ha
    obtain ⟨rfl, hwp⟩ := g5 hb.wp
    have hall : AllOrNothing s.toWrite.dev := by intro k hk; rw [hb.wp] at hk; simp at hk
    obtain ⟨rfl, i2, i3⟩ := g6 hall rfl
    refine ⟨{ s.toWrite with buf := b', dev := d' }, by simp only [Single.step, e, fileStep], ?_⟩
    refine ⟨⟨by rw [← hb.rp]; exact g3, hwp, hb.cr, hb.cw, g2.trans hb.mx, hb.pos,
      hb.small⟩, hm, .inl ⟨hm, bytes', g1, ?_, ?_⟩⟩
    · show putAt d'.data d'.pos bytes' = (fileWrite f bs).data
      rw [i2, fileWrite_eq, ← putAt_append, h1, h2]
    · show d'.pos + bytes'.length = (fileWrite f bs).cur
      rw [i3, fileWrite_eq, h2]
  | flush =>
    obtain ⟨s', e, h1, h2, h3⟩ := flush_spec h
    refine ⟨s', by simp [Single.step, e, fileStep], ?_⟩
    exact Settled.inv (c := ctxStep c .flush) h2 h1 h3
  | seek p =>
    rcases h.inv with hw | hr
    · obtain ⟨s', e, h1, h2, h3⟩ := flushIf_spec h hw
      refine ⟨{ s' with dev := { s'.dev with pos := p } }, ?_, ?_⟩
      · simp only [Single.step, hw.mode, if_true, e, fileStep]
      · refine Settled.inv ⟨h2.v, h2.data, rfl⟩ ⟨h1.rp, h1.wp, h1.cr, h1.cw, h1.mx, h1.pos, h1.small⟩ ?_
        show s'.wmode = c.wmode
        rw [h3, ← h.mode, hw.mode]
    · obtain ⟨hm, p0, pre, bytes, pos, stale, ⟨hv, hst, t1, t2, t3⟩, hc, hfr⟩ := hr
      have hpl := hv.pos_le
      have hll := hv.len_le
      rw [h.base.mx] at hll
      have hcm : c.wmode = false := by rw [← h.mode]; exact hm
      have hb := h.base
      have hmode : s.wmode = (ctxStep c (.seek p)).wmode := h.mode
      by_cases h0 : s.buf.usedSize > 0
      · by_cases h1 : p ≥ s.dev.pos - s.buf.usedSize ∧ p < s.dev.pos
        · refine ⟨{ s with buf := (s.buf.seek (p - (s.dev.pos - s.buf.usedSize))).2 }, ?_, ?_⟩
          · simp only [Single.step, hm, h0, h1, and_self, if_true, fileStep, Bool.false_eq_true,
              if_false]
          · rw [hv.used] at h1 ⊢
            have hst' : stale = [] := by
              rcases hst with hs | hs
              · exact hs
              · rcases ha with a | a | a | a
                · rw [hcm] at a; cases a
                · exact hfr a
                · exfalso
                  simp only [List.length_append, List.length_take] at hc t2; omega
                · exfalso
                  simp only [List.length_append, List.length_take] at hc t2; omega
            subst hst'
            simp only [List.length_append, List.length_take, List.length_nil] at hc t2
            obtain ⟨v1, v2⟩ := View.seek hv (p - (s.dev.pos - bytes.length)) (by omega)
            refine ⟨⟨hb.rp, hb.wp, hb.cr, hb.cw, v2.trans hb.mx, hb.pos, hb.small⟩, hmode,
              .inr ⟨hm, p0, pre, bytes, _, [], ⟨v1, .inl rfl, t1, ?_, t3⟩, ?_, fun _ => rfl⟩⟩
            · simp only [List.length_append, List.length_nil]; exact t2
            · show p = _
              simp only [List.length_append, List.length_take, List.length_nil]; omega
        · refine ⟨{ s with buf := s.buf.empty, dev := { s.dev with pos := p } }, ?_, ?_⟩
          · simp only [Single.step, hm, h0, h1, if_true, fileStep, Bool.false_eq_true, if_false]
          · exact Settled.inv ⟨hv.empty, t1, rfl⟩
              ⟨hb.rp, hb.wp, hb.cr, hb.cw, hb.mx, hb.pos, hb.small⟩ hmode
      · refine ⟨{ s with dev := { s.dev with pos := p } }, ?_, ?_⟩
        · simp only [Single.step, hm, h0, fileStep, Bool.false_eq_true, if_false]
        · rw [hv.used] at h0
          have : bytes = [] := List.length_eq_zero_iff.mp (by omega)
          subst this
          have : pos = 0 := by simpa using hpl
          subst this
          exact Settled.inv ⟨hv, t1, rfl⟩
              ⟨hb.rp, hb.wp, hb.cr, hb.cw, hb.mx, hb.pos, hb.small⟩ hmode
  | relativeSeek d =>
    obtain ⟨hcw, hd1, hd2, hd3⟩ := ha
    have hm : s.wmode = true := by rw [h.mode]; exact hcw
    have hw : WInv f s := by
      rcases h.inv with hw | hr
      · exact hw
      · rw [hr.mode] at hm; cases hm
    have hcs : ctxStep c (.relativeSeek d) = c := rfl
    by_cases h0 : d = 0
    · subst h0
      have hf0 : fileStep f (.relativeSeek 0) = (⟨true, [], 0⟩, f) := by
        simp [fileStep]
      rw [hf0, hcs]
      exact ⟨s, by simp [Single.step], h⟩
    · obtain ⟨s', e, h1, h2, h3⟩ := flushIf_spec h hw
      have hcur := h2.cur
      have hst : s.step (.relativeSeek d) =
          some (relTail s' true true (decide (d < 0)) (if decide (d < 0) = true then -d else d)) := by
        simp only [Single.step, ne_eq, h0, not_false_eq_true, if_true, hm, e]
      rw [hst, hcs]
      have hmode : s'.wmode = c.wmode := by rw [h3, hcw]
      unfold relTail
      by_cases hneg : d < 0
      · simp only [hneg, decide_true, if_true, Bool.and_self]
        by_cases hunder : -d > (s'.dev.pos : Int)
        · have hf : fileStep f (.relativeSeek d) = (⟨false, [], 0⟩, f) := by
            simp only [fileStep]; rw [if_neg (by omega)]
          rw [if_pos ⟨hunder, trivial⟩, hf]
          exact ⟨s', rfl, h2.inv h1 hmode⟩
        · have hf : fileStep f (.relativeSeek d)
              = (⟨true, [], 0⟩, ⟨f.data, (f.cur + d).toNat⟩) := by
            simp only [fileStep]; rw [if_pos (by omega)]
          rw [if_neg (by omega), hf]
          refine ⟨_, rfl, Settled.inv ⟨h2.v, h2.data, ?_⟩
            ⟨h1.rp, h1.wp, h1.cr, h1.cw, h1.mx, h1.pos, h1.small⟩ hmode⟩
          show (wrap64 ((s'.dev.pos : Int) - -d)).toNat = (f.cur + d).toNat
          unfold wrap64; rw [hcur]; congr 1; omega
      · simp only [hneg, decide_false, Bool.false_eq_true, if_false, and_false, Bool.and_self,
          if_true]
        have hf : fileStep f (.relativeSeek d)
              = (⟨true, [], 0⟩, ⟨f.data, (f.cur + d).toNat⟩) := by
            simp only [fileStep]; rw [if_pos (by omega)]
        rw [hf]
        refine ⟨_, rfl, Settled.inv ⟨h2.v, h2.data, ?_⟩
            ⟨h1.rp, h1.wp, h1.cr, h1.cw, h1.mx, h1.pos, h1.small⟩ hmode⟩
        show (wrap64 ((s'.dev.pos : Int) + d)).toNat = (f.cur + d).toNat
        unfold wrap64; rw [hcur]; congr 1; omega
  | position =>
    refine ⟨s, ?_, h⟩
    rcases h.inv with hw | hr
    · obtain ⟨hm, bytes, hv, h1, h2⟩ := hw
      simp only [Single.step, hm, if_true, hv.posn, fileStep, h2]
    · obtain ⟨hm, p0, pre, bytes, pos, stale, ⟨hv, hst, t1, t2, t3⟩, hc, hfr⟩ := hr
      have hpl := hv.pos_le
      have : s.dev.pos - (bytes.length - pos) = f.cur := by
        simp only [List.length_append, List.length_take] at hc t2
        rcases hst with hs | hs
        · simp only [hs, List.length_nil] at hc t2; omega
        · omega
      simp only [Single.step, hm, hv.left, fileStep, this, Bool.false_eq_true, if_false]
  | size =>
    obtain ⟨s', e, h1, h2, h3⟩ := flushAndResync_spec h
    refine ⟨s', by simp only [Single.step, e, fileStep, h2.data, if_true], ?_⟩
    exact Settled.inv (c := ctxStep c .size) h2 h1 h3
  | setSize n =>
    obtain ⟨s', e, h1, h2, h3⟩ := flushAndResync_spec h
    refine ⟨_, by simp only [Single.step, e, fileStep, if_true]; rfl, ?_⟩
    exact Settled.inv (c := ctxStep c (.setSize n)) ⟨h2.v, by simp [h2.data, fileStep], h2.cur⟩
      ⟨h1.rp, h1.wp, h1.cr, h1.cw, h1.mx, h1.pos, h1.small⟩ h3
  | setBufferSize n =>
    obtain ⟨s', e, h1, h2, h3⟩ := flushAndResync_spec h
    obtain ⟨b', e', v, hmx⟩ := setBufferSize_spec h2.v n ha
    refine ⟨_, by simp only [Single.step, e, if_true, e', fileStep]; rfl, ?_⟩
    refine Settled.inv (c := ctxStep c (.setBufferSize n)) ⟨v, h2.data, h2.cur⟩
      ⟨h1.rp, h1.wp, h1.cr, h1.cw, hmx, ?_, ?_⟩ h3
    · show 0 < if n < 8 then 8 else n; split <;> omega
    · have hn : n < 2 ^ 32 := ha
      show (if n < 8 then 8 else n) < 2 ^ 32; split <;> omega

theorem run_file : ∀ (ops : List SOp) {c f s}, SInv c f s → AllFileAllowed c f ops →
    ∃ s', s.run ops = some ((fileRun f ops).1, s') ∧
      ∃ c', SInv c' (fileRun f ops).2 s'
  | [], c, f, s, h, _ => ⟨s, rfl, c, h⟩
  | op :: ops, c, f, s, h, ha => by
    obtain ⟨s1, e1, h1⟩ := step_file op h ha.1
    obtain ⟨s2, e2, h2⟩ := run_file ops h1 ha.2
    exact ⟨s2, by simp only [Single.run, e1, e2, fileRun], h2⟩

theorem new_file (data : List Byte) (p : Nat) :
    ∃ s, Single.new ⟨data, p, [], []⟩ = some s ∧ SInv ⟨false, true, 32⟩ ⟨data, p⟩ s := by
  obtain ⟨b, e, v, hm⟩ := newBuf_spec 32 (by omega)
  refine ⟨⟨b, ⟨data, p, [], []⟩, false, 4, 4⟩, by simp only [Single.new, e, Option.map_some], ?_⟩
  exact Settled.inv ⟨v, rfl, rfl⟩ ⟨rfl, rfl, rfl, rfl, by rw [hm]; rfl, by decide, by decide⟩ rfl

theorem SInv.flushed {c f s} (h : SInv c f s) : ∃ s', s.flush = some (true, s') ∧
    s'.dev.data = f.data := by
  obtain ⟨s', e, _, h2, _⟩ := flush_spec h
  exact ⟨s', e, h2.data⟩

end Verif.Proof.BufferedFile
