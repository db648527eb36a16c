import Verif.Spec.Termios

/-
C95: serial ports pass all bytes.
-/

namespace Verif
open Spec Tty

theorem and_mask {f a M m : BitVec 32} (h : f &&& M = a) (hm : M &&& m = m) : f &&& m = a &&& m := by
  rw [← h, BitVec.and_assoc, hm]

theorem on_false {f a M m : BitVec 32} (h : f &&& M = a) (hm : M &&& m = m) (h0 : a &&& m = 0) : On f m = false := by
  simp [On, and_mask h hm, h0]

theorem on_true {f a M m : BitVec 32} (h : f &&& M = a) (hm : M &&& m = m) (h0 : a &&& m ≠ 0) : On f m = true := by
  have : a &&& m ≠ 0#32 := h0
  simp [On, and_mask h hm, this]

/-- The bits that matter. -/
structure RawBits (t : Termios) : Prop where
  i : t.iflag &&& (ISTRIP ||| IUCLC ||| IXON ||| IXOFF ||| IGNCR ||| ICRNL ||| INLCR ||| PARMRK) = 0
  o : t.oflag &&& OPOST = 0
  l : t.lflag &&& (ISIG ||| ICANON ||| ECHO ||| ECHONL) = 0
  c : t.cflag &&& (CSIZE ||| PARENB ||| CSTOPB ||| CREAD ||| CLOCAL ||| CIBAUD) = CS8 ||| CREAD ||| CLOCAL
  min : ctl t VMIN = 0
  time : ctl t VTIME = 0

theorem RawBits.transparent {t : Termios} (h : RawBits t) : Transparent t := by
  have oi := fun m hm => on_false (m := m) h.i hm (by simp)
  have ol := fun m hm => on_false (m := m) h.l hm (by simp)
  refine ⟨?_, ?_, ?_, ⟨?_, ?_, ?_⟩, ?_, ⟨h.min, h.time⟩⟩
  · intro b
    unfold Spec.ttyReceived
    simp [oi ISTRIP (by decide), oi IUCLC (by decide), oi IXON (by decide), oi IXOFF (by decide), oi IGNCR (by decide),
      oi ICRNL (by decide), oi INLCR (by decide), oi PARMRK (by decide), ol ISIG (by decide), ol ICANON (by decide),
      on_true (m := CREAD) h.c (by decide) (by decide)]
  · intro column b
    unfold Spec.ttyTransmitted
    simp [on_false (m := OPOST) h.o (by decide) (by decide)]
  · simp [echoes, ol ECHO (by decide), ol ICANON (by decide)]
  · exact (and_mask h.c (by decide)).trans (by decide)
  · exact on_false h.c (by decide) (by decide)
  · exact on_false h.c (by decide) (by decide)
  · exact on_true h.c (by decide) (by decide)

theorem and_clear {f k m : BitVec 32} (h : k &&& m = 0) : f &&& k &&& m = 0 := by
  rw [BitVec.and_assoc, h]; simp

theorem raw_bits (t : Termios) (hc : t.cflag = CREAD ||| B1200) (hi : t.iflag &&& (IUCLC ||| IXOFF ||| IGNCR) = 0) :
    RawBits (rawFlags t) := by
  refine ⟨?_, and_clear (by decide), ?_, ?_, ?_, ?_⟩
  · show (t.iflag &&& _) &&& _ = _
    rw [BitVec.and_assoc]
    exact (congrArg (t.iflag &&& ·) (by decide)).trans hi
  · show (t.lflag &&& _ &&& _) &&& _ = _
    rw [BitVec.and_assoc t.lflag]
    exact and_clear (by decide)
  · show ((((t.cflag &&& _) &&& _) ||| _) ||| _) &&& _ = _
    rw [hc]; decide
  · unfold ctl rawFlags VMIN VTIME
    simp only [List.getD_eq_getElem?_getD, List.getElem?_set]
    by_cases h : 6 < t.cc.length <;> simp [h]
  · unfold ctl rawFlags VMIN VTIME
    simp only [List.getD_eq_getElem?_getD, List.getElem?_set]
    by_cases h : 5 < t.cc.length <;> simp [h]

/-- Changing bits outside a mask. -/
theorem outside {f x y m : BitVec 32} (hx : x &&& m = m) (hy : y &&& m = 0) : ((f &&& x) ||| y) &&& m = f &&& m := by
  rw [BitVec.and_or_distrib_right, hy, BitVec.and_assoc, hx]; simp

theorem RawBits.speed {t : Termios} (h : RawBits t) (b : Nat) : RawBits (speedFlags b t) :=
  ⟨h.i, h.o, h.l, (outside (by decide) (by decide)).trans h.c, h.min, h.time⟩

theorem RawBits.flow {t : Termios} (h : RawBits t) (e : Bool) : RawBits (flowFlags e t) := by
  refine ⟨h.i, h.o, h.l, ?_, h.min, h.time⟩
  cases e
  · show (t.cflag &&& ~~~CRTSCTS) &&& _ = _
    rw [BitVec.and_assoc]
    exact h.c
  · show (t.cflag ||| CRTSCTS) &&& _ = _
    rw [BitVec.and_or_distrib_right]
    exact (congrArg (· ||| _) h.c).trans (by decide)

theorem speed_is (t : Termios) (h : t.cflag &&& CIBAUD = 0) (b : Nat) : SpeedIs (speedFlags b t) b := by
  refine ⟨?_, ?_, rfl, rfl⟩
  · show ((t.cflag &&& ~~~CBAUD) ||| BOTHER) &&& CBAUD = BOTHER
    rw [BitVec.and_or_distrib_right, BitVec.and_assoc, show ~~~CBAUD &&& CBAUD = 0 by decide]
    rw [show t.cflag &&& (0 : BitVec 32) = 0 from BitVec.and_zero]
    decide
  · show ((t.cflag &&& ~~~CBAUD) ||| BOTHER) &&& CIBAUD = 0
    rw [outside (by decide) (by decide)]; exact h

theorem reset_bits (t : Termios) :
    (speed1200 (resetFlags t)).cflag = CREAD ||| B1200 ∧
    (speed1200 (resetFlags t)).iflag &&& (IUCLC ||| IXOFF ||| IGNCR) = 0 := by
  refine ⟨?_, and_clear (by decide)⟩
  show (CREAD &&& ~~~CBAUD) ||| B1200 = _
  decide

theorem resetUart_true {r : TtyRes} {t t' : Termios} (h : resetUart r t = (t', true)) : t' = speed1200 (resetFlags t) := by
  unfold resetUart at h
  repeat' split at h
  all_goals simp at h
  exact h.symm

theorem uartOpen_raw {r : TtyRes} {t t' : Termios} (h : uartOpen r t = (t', true)) :
    RawBits t' ∧ t'.cflag &&& CIBAUD = 0 ∧ On t'.cflag CRTSCTS = false := by
  unfold uartOpen at h
  split at h
  · simp at h
  · split at h
    · simp at h
    · next t1 h1 =>
      cases resetUart_true h1
      split at h
      · simp at h
      · split at h
        · simp at h
        · obtain ⟨rfl, _⟩ := Prod.mk.inj h
          obtain ⟨hc, hi⟩ := reset_bits t
          refine ⟨raw_bits _ hc hi, ?_, ?_⟩
          · show ((((_ &&& _) &&& _) ||| _) ||| _) &&& _ = _
            rw [hc]; decide
          · show On ((((_ &&& _) &&& _) ||| _) ||| _) _ = _
            rw [hc]; decide

theorem setSpeed_cases (r : SpeedRes) (b : Nat) (t : Termios) :
    (setSpeed r b t).1 = t ∧ (setSpeed r b t).2 = false ∨ (setSpeed r b t).1 = speedFlags b t := by
  unfold setSpeed
  split
  · exact .inl ⟨rfl, rfl⟩
  · split
    · exact .inl ⟨rfl, rfl⟩
    · exact .inr rfl

/-- What holds at every moment after the set-up. -/
structure PortOk (flow : Bool) (t : Termios) : Prop where
  raw : RawBits t
  ibaud : t.cflag &&& CIBAUD = 0
  flow : On t.cflag CRTSCTS = flow

theorem PortOk.speed {flow : Bool} {t : Termios} (h : PortOk flow t) (b : Nat) : PortOk flow (speedFlags b t) := by
  refine ⟨h.raw.speed b, (outside (by decide) (by decide)).trans h.ibaud, ?_⟩
  have : (speedFlags b t).cflag &&& CRTSCTS = t.cflag &&& CRTSCTS := outside (by decide) (by decide)
  unfold On
  rw [this]
  exact h.flow

theorem PortOk.setSpeed {flow : Bool} {t : Termios} (h : PortOk flow t) (r : SpeedRes) (b : Nat) :
    PortOk flow (setSpeed r b t).1 := by
  rcases setSpeed_cases r b t with ⟨e, _⟩ | e
  · rw [e]; exact h
  · rw [e]; exact h.speed b

theorem PortOk.rates {flow : Bool} (rs : List (SpeedRes × Nat)) {t : Termios} (h : PortOk flow t) :
    PortOk flow (ttyRates rs t) := by
  induction rs generalizing t with
  | nil => exact h
  | cons x rs ih => exact ih (h.setSpeed x.1 x.2)

theorem PortOk.enable {t : Termios} (h : PortOk false t) : PortOk true (flowFlags true t) := by
  refine ⟨h.raw.flow true, ?_, ?_⟩
  · show (t.cflag ||| CRTSCTS) &&& CIBAUD = 0
    rw [BitVec.and_or_distrib_right, h.ibaud]; decide
  · show On (t.cflag ||| CRTSCTS) CRTSCTS = true
    unfold On
    rw [BitVec.and_or_distrib_right, BitVec.and_self]
    simp only [bne_iff_ne, ne_eq]
    intro hz
    have := congrArg (fun x : BitVec 32 => x.getLsbD 31) hz
    simp [CRTSCTS] at this

theorem speedIs_flow {t : Termios} {b : Nat} (h : SpeedIs t b) : SpeedIs (flowFlags true t) b := by
  obtain ⟨h1, h2, h3, h4⟩ := h
  refine ⟨?_, ?_, h3, h4⟩
  · show (t.cflag ||| CRTSCTS) &&& CBAUD = BOTHER
    rw [BitVec.and_or_distrib_right, h1]; decide
  · show (t.cflag ||| CRTSCTS) &&& CIBAUD = 0
    rw [BitVec.and_or_distrib_right, h2]; decide

theorem ttySetup_ok {r : TtyRes} {rs rf : SpeedRes} {rates : List Nat} {flow : Bool} {old t : Termios}
    (h : ttySetup r rs rf rates flow old = (t, true)) : PortOk flow t ∧ ∀ b, rates = [b] → SpeedIs t b := by
  unfold ttySetup at h
  split at h
  · simp at h
  · next t1 h1 =>
    obtain ⟨a1, a2, a3⟩ := uartOpen_raw h1
    have ok0 : PortOk false t1 := ⟨a1, a2, a3⟩
    have ok1 := ok0.setSpeed rs (rates.getD 0 0)
    simp only at h
    generalize hs : setSpeed rs (rates.getD 0 0) t1 = s at h ok1
    split at h
    · simp at h
    · next hn =>
      have hsp : ∀ b, rates = [b] → SpeedIs s.1 b := by
        rintro b rfl
        rcases setSpeed_cases rs b t1 with ⟨_, e⟩ | e
        · simp [← hs, e] at hn
        · rw [← hs]
          show SpeedIs (setSpeed rs b t1).1 b
          rw [e]; exact speed_is t1 a2 b
      have key : PortOk flow t ∧ ∀ b, rates = [b] → SpeedIs t b := by
        split at h
        · next hf =>
          subst hf
          unfold setFlow at h
          split at h
          · simp at h
          · split at h
            · simp at h
            · obtain ⟨rfl, _⟩ := Prod.mk.inj h
              exact ⟨ok1.enable, fun b hb => speedIs_flow (hsp b hb)⟩
        · next hf =>
          obtain ⟨rfl, _⟩ := Prod.mk.inj h
          have : flow = false := by simpa using hf
          subst this
          exact ⟨ok1, hsp⟩
      exact key

/-- C95: whatever the settings of a serial port were before, once the endpoint is set up the port passes all 256 byte
values unchanged in both directions, without echo, with 8N1 frames, ignoring modem lines, and hardware flow control is on
iff configured; this stays so whichever changes of the rate follow.  A single configured rate is the rate of both
directions. -/
theorem C95_transparent (r : TtyRes) (rs rf : SpeedRes) (rates : List Nat) (flow : Bool) (old t : Termios)
    (h : ttySetup r rs rf rates flow old = (t, true)) :
    (∀ changes, Transparent (ttyRates changes t) ∧ On (ttyRates changes t).cflag CRTSCTS = flow) ∧
    (∀ b, rates = [b] → SpeedIs t b) := by
  obtain ⟨k1, k2⟩ := ttySetup_ok h
  exact ⟨fun cs => ⟨(k1.rates cs).raw.transparent, (k1.rates cs).flow⟩, k2⟩

/-- C95 for the rate search: after each successful change the rate is the one that was asked for. -/
theorem C95_rate (r : TtyRes) (rs rf : SpeedRes) (rates : List Nat) (flow : Bool) (old t : Termios)
    (h : ttySetup r rs rf rates flow old = (t, true)) (changes : List (SpeedRes × Nat)) (r' : SpeedRes) (b : Nat)
    (hb : (setSpeed r' b (ttyRates changes t)).2 = true) : SpeedIs (setSpeed r' b (ttyRates changes t)).1 b := by
  have hc := ((ttySetup_ok h).1.rates changes).ibaud
  rcases setSpeed_cases r' b (ttyRates changes t) with ⟨_, e⟩ | e
  · rw [e] at hb; cases hb
  · rw [e]; exact speed_is _ hc b

/-- A port in the state of a login terminal with software flow control, tab expansion and seven bits. -/
def Sample.login : Termios :=
  { iflag := 0o66542, oflag := 0o14005, cflag := 0o2275, lflag := 0o105073, cc := List.replicate 19 7, ispeed := 9600, ospeed := 9600 }

example : ∃ t, ttySetup {} {} {} [57600] true Sample.login = (t, true) ∧
    (ttyReceived Sample.login 13, ttyReceived Sample.login 200, ttyTransmitted Sample.login 0 10) ≠ (some [13], some [200], [10]) ∧
    (ttyReceived t 13, ttyReceived t 200, ttyTransmitted t 0 10) = (some [13], some [200], [10]) ∧ SpeedIs t 57600 := by
  refine ⟨(ttySetup {} {} {} [57600] true Sample.login).1, ?_⟩
  unfold SpeedIs
  decide +kernel

/-- C95: setting up fails only if a system call does. The port is set up exactly if it could be opened, its attributes read, set and
flushed, the rate be set (a failure to set the first of several rates does not count), and flow control if it is wanted. -/
theorem C95_succeeds (r : TtyRes) (rs rf : SpeedRes) (rates : List Nat) (flow : Bool) (old : Termios) :
    (ttySetup r rs rf rates flow old).2 = true ↔
      (r.opened = true ∧ r.getOld = true ∧ r.setOld = true ∧ r.setSpeed = true ∧ r.get = true ∧ r.set = true ∧ r.flush = true) ∧
      (rates.length = 1 → rs.get = true ∧ rs.set = true ∧ rs.flush = true) ∧
      (flow = true → rf.get = true ∧ rf.set = true) := by
  obtain ⟨a, b, c, d, e, f, g⟩ := r
  obtain ⟨sg, ss, sf⟩ := rs
  obtain ⟨fg, fs, ff⟩ := rf
  by_cases h1 : rates.length = 1 <;> cases a <;> cases b <;> cases c <;> cases d <;> cases e <;> cases f <;> cases g <;>
    simp [ttySetup, uartOpen, resetUart] <;>
    cases sg <;> cases ss <;> cases sf <;> cases flow <;> cases fg <;> cases fs <;> simp [setSpeed, setFlow, h1]

example : (ttySetup {} { set := false } {} [57600, 115200] true Sample.login).2 = true ∧
    (ttySetup {} { set := false } {} [57600] true Sample.login).2 = false := by decide +kernel

/-- C95 for the rate search: a change of the rate succeeds exactly if its system calls do, and a failed one that could not set the rate
leaves the port as it was. -/
theorem C95_change (r : SpeedRes) (b : Nat) (t : Termios) :
    ((setSpeed r b t).2 = true ↔ r.get = true ∧ r.set = true ∧ r.flush = true) ∧
    (r.get = false ∨ r.set = false → (setSpeed r b t).1 = t) := by
  obtain ⟨g, s, f⟩ := r
  cases g <;> cases s <;> cases f <;> simp [setSpeed]

example : (setSpeed { flush := false } 9600 Sample.login).2 = false ∧ (setSpeed {} 9600 Sample.login).2 = true := by decide +kernel

end Verif
