import Verif.Spec.LogSent
import Verif.Props.LogProto
import Verif.Props.LogRouter
import Verif.Props.BinLog

/-
C46, C47 and C78 in the router: the answers of log endpoints are handed to `route_msg`.
-/

namespace Verif

open Spec

theorem skipped_length' (a n : UInt32) (h : a ≠ 0xFFFFFFFF) (l : BinLog) (hl : l.lastAcked = a) :
    ∃ new, (l.sendAck n).base.out = l.base.out ++ new ∧ acks new = [n] ∧ (nacks new).length = (skipped a n).length ∧
      (l.sendAck n).base.target = l.base.target := by
  obtain ⟨new, h1, h2, _⟩ := C47_count_partial l n (by rw [hl]; exact h)
  refine ⟨new, h1, ?_, by rw [h2, hl], ?_⟩
  · have h3 := (sendAck_base l n).2.2
    rw [h1, acks_append] at h3
    exact List.append_cancel_left h3
  · unfold BinLog.sendAck; split <;> rfl

/-- **C46, C47**: what an ArduPilot log endpoint of the router hands to `route_msg` while it is given a block, the file being open and block
0 seen. The block is written completely: exactly one acknowledgement, with its number, and (unless 2^32-1 was acknowledged before) as
many negative acknowledgements as numbers were skipped; otherwise no acknowledgement. All are addressed to the logged system, and the
block goes on to the other endpoints as it is. -/
theorem C46_routed (le : Nat → LogEnv) (now : Nat → UInt64) (i t : Nat) (l : BinLog) (m : Msg) (c : List UInt8) (hm : BlockMsg m)
    (ht : (le i).tbl 184 ≠ none) (hf : l.base.file = some c) (hs : l.base.startTimer = false) :
    ∃ (new : List LogOut) (l' : BinLog) (to : Option UInt8),
      logWrite le now i ⟨some (.bin l), t⟩ m = (⟨some (.bin l'), t + 1⟩, new.map (LogOut.toMsg (le i) to), m.data) ∧
      ((∃ k, (le i).wr l.base.nwrite = .n k ∧ 200 ≤ k) → acks new = [(blockIn m).seqno] ∧ to = l.base.target ∧
        (l.lastAcked ≠ 0xFFFFFFFF → (nacks new).length = (skipped l.lastAcked (blockIn m).seqno).length)) ∧
      ((¬ ∃ k, (le i).wr l.base.nwrite = .n k ∧ 200 ≤ k) → acks new = []) := by
  let q : BinLog := { l with base := l.base.quiet }
  have hq : logWrite le now i ⟨some (.bin l), t⟩ m =
      (⟨some (.bin (q.writeMsg (le i) m)), t + 1⟩, (q.writeMsg (le i) m).base.out.map (LogOut.toMsg (le i) (q.writeMsg (le i) m).base.target),
        m.data) := rfl
  obtain ⟨new, h1, h2, h3⟩ := C46_ack (le i) q m c hm ht hf hs
  have hout : (q.writeMsg (le i) m).base.out = new := by rw [h1]; rfl
  rw [hq, hout]
  refine ⟨new, _, _, rfl, fun hk => ?_, h3⟩
  refine ⟨(h2 hk).1, ?_⟩
  obtain ⟨k, hk1, hk2⟩ := hk
  have hlen : (blockIn m).data.length = 200 := blockIn_length m
  have hw : q.writeMsg (le i) m = (BinLog.sendAck { q with base := { q.base with
      file := some (writeAt c (blockOffset (blockIn m).seqno) ((blockIn m).data.take k)), nwrite := q.base.nwrite + 1 } }
      (blockIn m).seqno).count := by
    rw [writeMsg_open hm ht (show q.base.file = some c from hf) hs]
    unfold BinLog.process
    rw [show q.base.file = some c from hf, show (le i).wr q.base.nwrite = .n k from hk1]
    simp only []
    rw [if_pos (by rw [hlen]; unfold blockLen; omega)]
  constructor
  · rw [hw]
    unfold BinLog.sendAck
    split <;> rfl
  · intro hl
    obtain ⟨new', g1, _, g3, _⟩ := skipped_length' l.lastAcked (blockIn m).seqno hl { q with base := { q.base with
      file := some (writeAt c (blockOffset (blockIn m).seqno) ((blockIn m).data.take k)), nwrite := q.base.nwrite + 1 } } rfl
    have : new = new' := by
      rw [← hout, hw]
      exact g1
    rw [this, g3]

/-- Block 3 behind block 0: the router is given three messages for system 1. -/
example : (logWrite (fun _ => Sample.binEnv) (fun _ => 0) 2
    ⟨some (.bin { base := { target := some 1, mode := .always, file := some [] } }), 0⟩ (Sample.binMsg 3 [7])).2.1.map
      (fun m => (m.msgId, m.targetSys)) = [(185, 1), (185, 1), (185, 1)] ∧ BlockMsg (Sample.binMsg 3 [7]) :=
  ⟨by decide +kernel, ⟨rfl, by decide, .inl rfl⟩⟩

/-! ### PX4 logs -/

theorem oneCall_gone (env : Env LogSt) (le : Nat → LogEnv) (now : Nat → UInt64) (i : Nat) (s : LogSt) (ev : ULogEv) (h : s.logger = none) :
    (oneCall (env.withLogs le now) i s ev).1.logger = none := by
  obtain ⟨l, t⟩ := s
  simp only at h
  subst h
  cases ev <;> rfl

theorem allCalls_gone (env : Env LogSt) (le : Nat → LogEnv) (now : Nat → UInt64) (i : Nat) : ∀ (evs : List ULogEv) (s : LogSt), s.logger = none →
    (allCalls (env.withLogs le now) i s evs).1.logger = none
  | [], _, h => h
  | ev :: evs, s, h => allCalls_gone env le now i evs _ (oneCall_gone env le now i s ev h)

/-- One call: the messages given to the router are those asked for inside the log endpoint. -/
theorem oneCall_ulog (env : Env LogSt) (le : Nat → LogEnv) (now : Nat → UInt64) (i t : Nat) (u : ULog) (ev : ULogEv)
    (h : (oneCall (env.withLogs le now) i ⟨some (.ulog u), t⟩ ev).1.logger ≠ none) :
    ∃ v t', ULog.step (le i) { u with base := u.base.quiet } ev = some v ∧
      oneCall (env.withLogs le now) i ⟨some (.ulog u), t⟩ ev = (⟨some (.ulog v), t'⟩, v.base.out.map (LogOut.toMsg (le i) v.base.target)) := by
  cases ev with
  | msg m =>
    simp only [oneCall, Env.withLogs, logWrite, Logger.quiet, Logger.writeMsg, ULog.step] at h ⊢
    cases hw : ULog.writeMsg (le i) { u with base := u.base.quiet } m with
    | none => rw [hw] at h; exact absurd rfl h
    | some r => exact ⟨r.1, t + 1, rfl, rfl⟩
  | startTimeout =>
    simp only [oneCall, Env.withLogs, logTimer, Logger.quiet, Logger.call, LogCall.event] at h ⊢
    cases hw : ULog.step (le i) { u with base := u.base.quiet } .startTimeout with
    | none => rw [hw] at h; exact absurd rfl h
    | some r => exact ⟨r, t, rfl, rfl⟩
  | aliveTimeout =>
    simp only [oneCall, Env.withLogs, logTimer, Logger.quiet, Logger.call, LogCall.event] at h ⊢
    cases hw : ULog.step (le i) { u with base := u.base.quiet } .aliveTimeout with
    | none => rw [hw] at h; exact absurd rfl h
    | some r => exact ⟨r, t, rfl, rfl⟩
  | stop =>
    simp only [oneCall, Env.withLogs, logTimer, Logger.quiet, Logger.call, LogCall.event] at h ⊢
    cases hw : ULog.step (le i) { u with base := u.base.quiet } .stop with
    | none => rw [hw] at h; exact absurd rfl h
    | some r => exact ⟨r, t, rfl, rfl⟩

theorem allCalls_ulog (env : Env LogSt) (le : Nat → LogEnv) (now : Nat → UInt64) (i : Nat) (h77 : (le i).tbl 77 ≠ none)
    (h266 : (le i).tbl 266 ≠ none) (h267 : (le i).tbl 267 ≠ none) : ∀ (evs : List ULogEv) (u : ULog) (t : Nat), TimerInv u.base →
    (∀ m ∈ messages evs, NumberPresent m) → (allCalls (env.withLogs le now) i ⟨some (.ulog u), t⟩ evs).1.logger ≠ none →
    ∃ outs : List LogOut, (allCalls (env.withLogs le now) i ⟨some (.ulog u), t⟩ evs).2.map Msg.data = outs.map (le i).encode ∧
      ulogAcks outs = numbersToAck evs
  | [], _, _, _, _, _ => ⟨[], rfl, rfl⟩
  | ev :: evs, u, t, hi, hn, hl => by
    have h1 : (oneCall (env.withLogs le now) i ⟨some (.ulog u), t⟩ ev).1.logger ≠ none := by
      intro h0
      exact hl (allCalls_gone env le now i evs _ h0)
    obtain ⟨v, t', hs, ho⟩ := oneCall_ulog env le now i t u ev h1
    have hq : TimerInv ({ u with base := u.base.quiet } : ULog).base := ⟨hi.startOpen, hi.aliveOpen, hi.one⟩
    have hsplit : ∀ m, (m ∈ messages [ev] → m ∈ messages (ev :: evs)) ∧ (m ∈ messages evs → m ∈ messages (ev :: evs)) := by
      intro m
      simp only [mem_messages, List.mem_cons, List.not_mem_nil, or_false]
      exact ⟨Or.inl, Or.inr⟩
    obtain ⟨a1, a2⟩ := ulogAcks_run h77 h266 h267 [ev] { u with base := u.base.quiet } v hq (fun m hm => hn m ((hsplit m).1 hm)) (by
      simp only [ULog.run, hs])
    have hl' : (allCalls (env.withLogs le now) i ⟨some (.ulog v), t'⟩ evs).1.logger ≠ none := by
      rw [allCalls, ho] at hl
      exact hl
    obtain ⟨outs, b1, b2⟩ := allCalls_ulog env le now i h77 h266 h267 evs v t' a2 (fun m hm => hn m ((hsplit m).2 hm)) hl'
    refine ⟨v.base.out ++ outs, ?_, ?_⟩
    · rw [allCalls, ho]
      simp only [List.map_append, b1, List.map_map]
      rfl
    · have hnum : numbersToAck (ev :: evs) = numbersToAck [ev] ++ numbersToAck evs := by
        unfold numbersToAck messages
        cases ev with
        | msg m => simp only [List.filterMap_cons, List.filterMap_nil]; split <;> rfl
        | startTimeout => rfl
        | aliveTimeout => rfl
        | stop => rfl
      have hap : ∀ x y : List LogOut, ulogAcks (x ++ y) = ulogAcks x ++ ulogAcks y := fun x y => by
        unfold ulogAcks; exact List.filterMap_append
      rw [hap, a1, b2, hnum]
      rfl

/-- **C78** in the router: over any history of calls into a PX4 log endpoint of the router, the messages given to the router are the
encodings of requests and acknowledgements of which the acknowledgements carry, in order, exactly the numbers of the messages that ask for one.
Missing as in `C78_acked_partial`; a call that does not return ends the history (C52). -/
theorem C78_routed_partial (env : Env LogSt) (le : Nat → LogEnv) (now : Nat → UInt64) (i : Nat) (target : Option UInt8) (mode : LogMode)
    (h77 : (le i).tbl 77 ≠ none) (h266 : (le i).tbl 266 ≠ none) (h267 : (le i).tbl 267 ≠ none) (evs : List ULogEv)
    (hn : ∀ m ∈ messages evs, NumberPresent m)
    (hl : (allCalls (env.withLogs le now) i ⟨some (.ulog (ULog.init target mode)), 0⟩ evs).1.logger ≠ none) :
    ∃ outs : List LogOut,
      (allCalls (env.withLogs le now) i ⟨some (.ulog (ULog.init target mode)), 0⟩ evs).2.map Msg.data = outs.map (le i).encode ∧
      ulogAcks outs = numbersToAck evs :=
  allCalls_ulog env le now i h77 h266 h267 evs _ 0 (timerInv_init target mode) hn hl

/-- Two messages with number 0 and one with number 7: three acknowledgements reach the router. -/
example : ((allCalls (Sample.lrEnv.withLogs (fun _ => Sample.logEnv) (fun _ => 0)) 2 ⟨some (.ulog (ULog.init (some 1) .always)), 0⟩
      [.msg (Sample.logHb 1 1 12 128), .msg (Sample.ackedMsg 0), .msg (Sample.ackedMsg 0), .msg (Sample.ackedMsg 7)]).2.map Msg.msgId,
    (allCalls (Sample.lrEnv.withLogs (fun _ => Sample.logEnv) (fun _ => 0)) 2 ⟨some (.ulog (ULog.init (some 1) .always)), 0⟩
      [.msg (Sample.logHb 1 1 12 128), .msg (Sample.ackedMsg 0), .msg (Sample.ackedMsg 0), .msg (Sample.ackedMsg 7)]).1.logger.isSome) =
    ([268, 268, 268], true) := by decide +kernel

end Verif
