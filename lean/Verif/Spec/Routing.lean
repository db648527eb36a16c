import Verif.Model.Routing

/-
Specification of routing. Only the data carriers `Ep`, `Filters`, `Msg` are shared with the model; none of the
model's decision functions is used.
-/

namespace Verif.Spec

/-- The endpoint has seen (system, component). -/
def Knows (e : Ep) (sys comp : Nat) : Prop := ∃ x ∈ e.learned, x.toNat = 256 * sys + comp

/-- The endpoint has seen some component of the system. -/
def KnowsSys (e : Ep) (sys : Nat) : Prop := ∃ comp, comp < 256 ∧ Knows e sys comp

/-- One identifier against an allow-list and a block-list. -/
def passes {α} (allow block : List α) (x : α) : Prop := (allow = [] ∨ x ∈ allow) ∧ x ∉ block

/-- Outgoing filters: message id, source component, source system. -/
def outOk (f : Filters) (m : Msg) : Prop :=
  passes f.allowOutMsg f.blockOutMsg m.msgId ∧ passes f.allowOutComp f.blockOutComp m.srcComp ∧
  passes f.allowOutSys f.blockOutSys m.srcSys

/-- Incoming filters. -/
def inOk (f : Filters) (m : Msg) : Prop :=
  passes f.allowInMsg f.blockInMsg m.msgId ∧ passes f.allowInComp f.blockInComp m.srcComp ∧
  passes f.allowInSys f.blockInSys m.srcSys

/-- A target system of 0 or "none" (-1) is a broadcast; a target component of 0 or "none" addresses every
component of the system. -/
def Addressed (e : Ep) (m : Msg) : Prop :=
  m.targetSys ≤ 0 ∨
  (m.targetComp ≤ 0 ∧ KnowsSys e m.targetSys.toNat) ∨
  (0 < m.targetComp ∧ Knows e m.targetSys.toNat m.targetComp.toNat)

/-- The sniffer system is configured and was seen on the endpoint. For a system id, 1 to 255, the remainder is the id
itself; the setting is not checked (C74), and a larger number acts as its low byte. -/
def Sniffs (sniffer : Nat) (e : Ep) : Prop := sniffer ≠ 0 ∧ KnowsSys e (sniffer % 256)

/-- The endpoint the message came from, in the sense of routing: its sender was seen there. -/
def FromHere (e : Ep) (m : Msg) : Prop := Knows e m.srcSys.toNat m.srcComp.toNat

/-- The routing rule. -/
def ShouldSend (sniffer : Nat) (e : Ep) (m : Msg) : Prop :=
  ¬ FromHere e m ∧ outOk e.filters m ∧ (Addressed e m ∨ Sniffs sniffer e)

/-- What the receive path guarantees of a message (C10): identifiers in range. -/
structure MsgOk (m : Msg) : Prop where
  id : m.msgId < 4294967295
  tsys : -1 ≤ m.targetSys ∧ m.targetSys ≤ 255
  tcomp : -1 ≤ m.targetComp ∧ m.targetComp ≤ 255

/-- Same endpoint or same non-empty group name. -/
def Peer (eps : List Ep) (i j : Nat) : Prop :=
  i = j ∨ ∃ e e' : Ep, eps[i]? = some e ∧ eps[j]? = some e' ∧ e.group ≠ "" ∧ e.group = e'.group

/-- Group links are as configured: an endpoint is linked with exactly the other endpoints of its non-empty
group. -/
def Grouped (eps : List Ep) : Prop :=
  ∀ (i : Nat) (e : Ep), eps[i]? = some e → ∀ j : Nat, j ∈ e.members ↔
    j ≠ i ∧ ∃ e' : Ep, eps[j]? = some e' ∧ e.group ≠ "" ∧ e.group = e'.group

end Verif.Spec

namespace Verif.Spec

/-- What the configuration gives: endpoints without links; only log endpoints know an address, their own 2/0,
and they are in no group (src/logendpoint.cpp:61-81). -/
def ConfigOk (eps : List Ep) : Prop :=
  ∀ e ∈ eps, e.members = [] ∧ (e.kind = .log → e.group = "" ∧ e.learned = [sysComp 2 0]) ∧
    (e.kind ≠ .log → e.learned = [])

/-- The router after `add_endpoints`: all endpoints linked and in `g_endpoints` in order. -/
def start {σ : Type} (eps : List Ep) (logs : Nat → σ) : World σ :=
  { eps := linkGroups eps, active := List.range eps.length, logs := logs }

/-- States the router can be in: after configuration, any events and single messages arriving at endpoints
(messages inside a read event are separate steps, so states in the middle of a read are included). -/
inductive Reached {σ : Type} (env : Env σ) : World σ → Prop
  | start {eps : List Ep} {logs : Nat → σ} : ConfigOk eps → Reached env (start eps logs)
  | event {w w' : World σ} {ev : RouterEv} {as} : Reached env w → routerStep env w ev = some (w', as) →
      Reached env w'
  | message {w w' : World σ} {i : Nat} {m : Msg} {b} : Reached env w → handleMsg env w i m = some (w', b) →
      Reached env w'

/-- Writes of the routed message itself (not of messages generated by log endpoints), since `w`. -/
def directSince {σ : Type} (w w' : World σ) : List Sent :=
  (w'.out.drop w.out.length).filter (fun s => !s.gen)

/-- Endpoint `i` exists and the rule says it gets the message. -/
def Gets (sniffer : Nat) (eps : List Ep) (m : Msg) (i : Nat) : Prop :=
  ∃ e, eps[i]? = some e ∧ ShouldSend sniffer e m

/-- Table entries describe the id they are looked up by (property of the generated MAVLink table). -/
def TableOk (tbl : MsgTable) : Prop := ∀ id e, tbl id = some e → e.msgid = id

/-- The kernel results of the read events of endpoint `i`, in order. -/
def readsOf (i : Nat) (evs : List RouterEv) : List SysRead :=
  evs.filterMap (fun ev => match ev with
    | .read j io => if j = i then some io else none
    | _ => none)

end Verif.Spec
