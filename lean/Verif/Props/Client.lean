import Verif.Props.Concern
import Verif.Props.UdpRouter

/- Property C147: a client of the TCP server is served like a configured link. -/

namespace Verif
open Spec

variable {σ τ : Type}

theorem Spec.SameFor.append {eps eps' : List Ep} {j j' : Nat} {as as' bs bs' : List Arrival} (h : SameFor eps eps' j j' as as')
    (g : SameFor eps eps' j j' bs bs') : SameFor eps eps' j j' (as ++ bs) (as' ++ bs') := by
  induction h with
  | nil => exact g
  | cons h1 h2 h3 _ ih => exact .cons h1 h2 h3 ih

theorem Spec.SameFor.length {eps eps' : List Ep} {j j' : Nat} {as as' : List Arrival} (h : SameFor eps eps' j j' as as') :
    as'.length = as.length := by
  induction h with
  | nil => rfl
  | cons _ _ _ _ ih => simp [ih]

/-- **C147**: in one router client `j` of the TCP server is connected after a first part of the history; in another, configured in any way, `j'` is a
link with no effective outgoing filters. The sniffer is set alike. If what arrives is, in both parts, the same as far as the two are concerned,
and either at the same times with de-duplication set alike, or without de-duplication, or no packet twice, the client is handed in the second
part what the link is handed in it: the same bytes in the same order. No log endpoint edits the messages of the second part. -/
theorem C147_client (env : Env σ) (env' : Env τ) (ht : TableOk env.tbl) (htb : env'.tbl = env.tbl) (hsn : env'.sniffer = env.sniffer)
    (hh : env'.hashFn = env.hashFn) (eps eps' : List Ep) (hc : ConfigOk eps) (hc' : ConfigOk eps') (logs : Nat → σ) (logs' : Nat → τ)
    (evs1 evs2 evs1' evs2' : List RouterEv) (w1 w2 : World σ) (w1' w2' : World τ) (as1 as2 as1' as2' : List Arrival)
    (h1 : runRouter env (start eps logs) evs1 = some (w1, as1)) (h2 : runRouter env w1 evs2 = some (w2, as2))
    (h1' : runRouter env' (start eps' logs') evs1' = some (w1', as1')) (h2' : runRouter env' w1' evs2' = some (w2', as2'))
    (j j' : Nat) (e' : Ep) (hj : eps.length ≤ j) (he' : eps'[j']? = some e') (hl' : LinkAt eps' j') (hk' : e'.kind ≠ .log)
    (hf : ∀ m, outOk e'.filters m) (hact : j ∈ w1.active) (hact' : j' ∈ w1'.active)
    (hs1 : SameFor eps eps' j j' as1 as1') (hs2 : SameFor eps eps' j j' as2 as2')
    (hp : (env'.dedupPeriod = env.dedupPeriod ∧ env'.clock = env.clock) ∨ (env.dedupPeriod = 0 ∧ env'.dedupPeriod = 0) ∨
      NoCopies env.hashFn [] (as1 ++ as2))
    (hedit : ∀ a ∈ as2, UneditedBefore env eps j a.msg)
    (hgone : ∀ gone, RouterEv.hangups gone ∈ evs2 → j ∉ gone) (hgone' : ∀ gone, RouterEv.hangups gone ∈ evs2' → j' ∉ gone) :
    (writesTo j w1 w2).map Sent.bytes = (writesTo j' w1' w2').map Sent.bytes := by
  have ht' : TableOk env'.tbl := by rw [htb]; exact ht
  have hn : eps[j]? = none := List.getElem?_eq_none_iff.mpr hj
  have hv := concern_verdict env env' ht htb hh eps eps' hc hc' logs logs' _ _ w2 w2' _ _ (runRouter_append evs1 h1 h2)
    (runRouter_append evs1' h1' h2') (sameFor_msgs (hs1.append hs2)) hp
  have hm1 := sameFor_agree hs1 (fun k a a' ha ha' => hv k a a'
    (by rw [List.getElem?_append_left (List.getElem?_eq_some_iff.mp ha).1]; exact ha)
    (by rw [List.getElem?_append_left (List.getElem?_eq_some_iff.mp ha').1]; exact ha'))
  have hm2 := sameFor_agree hs2 (fun k a a' ha ha' => hv (as1.length + k) a a'
    (by rw [List.getElem?_append_right (by omega)]; simpa using ha)
    (by rw [← hs1.length, List.getElem?_append_right (by omega)]; simpa using ha'))
  have sub : ∀ (sn : Nat) (past bs : List Arrival), ∀ a ∈ expected sn eps j past bs, a ∈ bs := by
    intro sn past bs
    induction bs generalizing past with
    | nil => intro a ha; simp [expected] at ha
    | cons b bs ih =>
      intro a ha
      simp only [expected] at ha
      rcases List.mem_append.mp ha with ha | ha
      · split at ha <;> simp_all
      · exact List.mem_cons_of_mem _ (ih _ a ha)
  have e1 := accounts_bytes (C88_complete_partial env ht eps hc logs evs1 evs2 w1 w2 as1 as2 h1 h2 j hact hgone)
    (fun a ha => hedit a (sub _ _ _ a ha))
  have e2 := C88_links env' ht' eps' hc' logs' evs1' evs2' w1' w2' as1' as2' h1' h2' j' hl' hact' hgone'
  have := congrArg (List.map Msg.data) (agree_expected env.sniffer.toNat (eps := eps) (eps' := eps') (j := j) (j' := j')
    (by simp [hn, he', hk']) (by simp [hn, he', hf]) hm2 hm1)
  simp only [List.map_map] at this
  rw [e1, e2, hsn]
  exact this.symm

/-- **C147** with the actual log endpoints: PX4 log data (LOGGING_DATA, LOGGING_DATA_ACKED) are all they edit, for clients behind them. -/
theorem C147_client_logs (env : Env LogSt) (le : Nat → LogEnv) (now : Nat → UInt64) (env' : Env τ) (ht : TableOk env.tbl)
    (htb : env'.tbl = env.tbl) (hsn : env'.sniffer = env.sniffer)
    (hh : env'.hashFn = env.hashFn) (eps eps' : List Ep) (hc : ConfigOk eps) (hc' : ConfigOk eps') (logs : Nat → LogSt) (logs' : Nat → τ)
    (evs1 evs2 evs1' evs2' : List RouterEv) (w1 w2 : World LogSt) (w1' w2' : World τ) (as1 as2 as1' as2' : List Arrival)
    (h1 : runRouter (env.withLogs le now) (start eps logs) evs1 = some (w1, as1))
    (h2 : runRouter (env.withLogs le now) w1 evs2 = some (w2, as2))
    (h1' : runRouter env' (start eps' logs') evs1' = some (w1', as1')) (h2' : runRouter env' w1' evs2' = some (w2', as2'))
    (j j' : Nat) (e' : Ep) (hj : eps.length ≤ j) (he' : eps'[j']? = some e') (hl' : LinkAt eps' j') (hk' : e'.kind ≠ .log)
    (hf : ∀ m, outOk e'.filters m) (hact : j ∈ w1.active) (hact' : j' ∈ w1'.active)
    (hs1 : SameFor eps eps' j j' as1 as1') (hs2 : SameFor eps eps' j j' as2 as2')
    (hp : (env'.dedupPeriod = env.dedupPeriod ∧ env'.clock = env.clock) ∨ (env.dedupPeriod = 0 ∧ env'.dedupPeriod = 0) ∨
      NoCopies env.hashFn [] (as1 ++ as2))
    (hpx4 : ∀ a ∈ as2, a.msg.msgId ≠ 266 ∧ a.msg.msgId ≠ 267)
    (hgone : ∀ gone, RouterEv.hangups gone ∈ evs2 → j ∉ gone) (hgone' : ∀ gone, RouterEv.hangups gone ∈ evs2' → j' ∉ gone) :
    (writesTo j w1 w2).map Sent.bytes = (writesTo j' w1' w2').map Sent.bytes :=
  C147_client (env.withLogs le now) env' ht htb hsn hh eps eps' hc hc' logs logs' evs1 evs2 evs1' evs2' w1 w2 w1' w2' as1 as2 as1' as2'
    h1 h2 h1' h2' j j' e' hj he' hl' hk' hf hact hact' hs1 hs2 hp
    (fun a ha i _ _ s => logWrite_data le now i s a.msg (hpx4 a ha).1 (hpx4 a ha).2) hgone hgone'

/-- A serial link; and a serial and a UDP link. -/
def Sample.epsServer : List Ep := [{ kind := .uart }]
def Sample.epsSpare : List Ep := [{ kind := .uart }, { kind := .udp }]

/-- What is handed to endpoint 1 in a first and in a second part of a history, what arrives, and who is connected in between. -/
def Sample.twoParts (eps : List Ep) (evs1 evs2 : List RouterEv) :
    Option (List (List Arrival) × List Nat × List (List (List UInt8))) :=
  (runRouter Sample.envQuiet (start eps fun _ => 0) evs1).bind fun (w1, as1) =>
    (runRouter Sample.envQuiet w1 evs2).map fun (w2, as2) =>
      ([as1, as2], w1.active, [(writesTo 1 (start eps fun _ => 0) w1).map Sent.bytes, (writesTo 1 w1 w2).map Sent.bytes])

/-- A client connects after the first heartbeat, sends a command and gets it not back, but the next heartbeat; as a UDP link in its place does,
which was handed the first heartbeat, too. -/
example : TableOk Sample.envQuiet.tbl ∧ ConfigOk Sample.epsServer ∧ ConfigOk Sample.epsSpare ∧ LinkAt Sample.epsSpare 1 ∧
    Sample.twoParts Sample.epsServer [.read 0 (.got Sample.hb2.encode), .accept] [.read 1 (.got Sample.cmdTo1.encode), .read 0 (.got Sample.hb1.encode)] =
      some ([[Sample.came 0 Sample.hb2], [Sample.came 1 Sample.cmdTo1, Sample.came 0 Sample.hb1]], [0, 1], [[], [Sample.hb1.encode]]) ∧
    Sample.twoParts Sample.epsSpare [.read 0 (.got Sample.hb2.encode)] [.read 1 (.got Sample.cmdTo1.encode), .read 0 (.got Sample.hb1.encode)] =
      some ([[Sample.came 0 Sample.hb2], [Sample.came 1 Sample.cmdTo1, Sample.came 0 Sample.hb1]], [0, 1], [[Sample.hb2.encode], [Sample.hb1.encode]]) ∧
    SameFor Sample.epsServer Sample.epsSpare 1 1 [Sample.came 0 Sample.hb2] [Sample.came 0 Sample.hb2] ∧
    SameFor Sample.epsServer Sample.epsSpare 1 1 [Sample.came 1 Sample.cmdTo1, Sample.came 0 Sample.hb1]
      [Sample.came 1 Sample.cmdTo1, Sample.came 0 Sample.hb1] ∧
    (∀ m, outOk ({} : Filters) m) ∧ (∀ m, UneditedBefore Sample.envQuiet Sample.epsServer 1 m) ∧ Sample.envQuiet.dedupPeriod = 0 ∧
    (∀ a ∈ [Sample.came 1 Sample.cmdTo1, Sample.came 0 Sample.hb1], a.msg.msgId ≠ 266 ∧ a.msg.msgId ≠ 267) := by
  have one : ∀ e ∈ Sample.epsSpare, e.kind ≠ .log := by
    intro e he
    simp only [Sample.epsSpare, List.mem_cons, List.not_mem_nil, or_false] at he
    rcases he with rfl | rfl <;> decide
  refine ⟨Sample.tbl_ok, ?_, ?_, ⟨by decide, fun i _ e he => one e (List.mem_of_getElem? he)⟩, by decide +kernel, by decide +kernel,
    .cons rfl Iff.rfl ?_ .nil, .cons rfl Iff.rfl ?_ (.cons rfl Iff.rfl ?_ .nil), ?_, fun m i _ _ s => rfl, by decide, by decide +kernel⟩
  · intro e he
    simp only [Sample.epsServer, List.mem_cons, List.not_mem_nil, or_false] at he
    rcases he with rfl; simp
  · intro e he
    simp only [Sample.epsSpare, List.mem_cons, List.not_mem_nil, or_false] at he
    rcases he with rfl | rfl <;> simp
  · simp [Peer, Sample.epsServer, Sample.epsSpare, Sample.came]
  · simp [Peer, Sample.epsServer, Sample.epsSpare, Sample.came]
  · simp [Peer, Sample.epsServer, Sample.epsSpare, Sample.came]
  · intro m; simp [outOk, passes]

end Verif
