import Verif.Spec.Routing
import Verif.Spec.Samples

/- Concrete router used in the `example`s of `Verif.Props.Routing`. -/

namespace Verif.Sample

open Verif.Spec

/-- A UART, two endpoints of group "g", a log endpoint. -/
def eps : List Ep :=
  [{ kind := .uart, filters := { blockInMsg := [77], blockOutSys := [9] } }, { kind := .udp, group := "g" },
   { kind := .tcp, group := "g" }, { kind := .log, learned := [sysComp 2 0] }]

theorem eps_ok : ConfigOk eps := by unfold ConfigOk; decide

/-- A log endpoint that counts messages and answers each with a message from 2/0 to 1/1. -/
def ack : Msg :=
  { data := [0xFD, 1], msgId := 77, targetSys := 1, targetComp := 1, srcSys := 2, srcComp := 0, payloadLen := 0,
    payloadOfs := none }

def env : Env Nat :=
  { tbl := tbl, hashFn := fun bs => UInt64.ofNat (bs.foldl (fun a b => a * 256 + b.toNat) 0),
    clock := fun n => n, wres := fun _ => 1, sniffer := 0,
    log := fun _ s m => (s + 1, [ack], m.data) }

/-- The same router with system 42 as sniffer. -/
def envSniff : Env Nat := { env with sniffer := 42 }

/-- The same router whose log endpoint generates nothing. -/
def envQuiet : Env Nat := { env with log := fun _ s m => (s + 1, [], m.data) }

/-- A broadcast from 1/1. -/
def mHb : Msg := (hb2.toMsg tbl).1

/-- A command from 42/200 to 1/1. -/
def mCmd : Msg :=
  { data := [0xFD, 7], msgId := 76, targetSys := 1, targetComp := 1, srcSys := 42, srcComp := 200,
    payloadLen := 33, payloadOfs := some 10 }

theorem mHb_ok : MsgOk mHb := ⟨by decide, by decide, by decide⟩
theorem mCmd_ok : MsgOk mCmd := ⟨by decide, by decide, by decide⟩

/-- The router after start. -/
def w0 : World Nat := start eps (fun _ => 0)

/-- The router after a heartbeat from 1/1 on the UART. -/
def w1 : World Nat := ((handleMsg env w0 0 mHb).map Prod.fst).getD w0

/-- The router after, in addition, a command from 42/200 on endpoint 1. -/
def w2 : World Nat := ((handleMsg env w1 1 mCmd).map Prod.fst).getD w1

theorem w0_reached : Reached env w0 := .start eps_ok

theorem w1_step : ∃ b, handleMsg env w0 0 mHb = some (w1, b) := by
  cases h : handleMsg env w0 0 mHb with
  | none => exact absurd (congrArg Option.isSome h) (by decide +kernel)
  | some r => exact ⟨r.2, by unfold w1; rw [h]; rfl⟩

theorem w2_step : ∃ b, handleMsg env w1 1 mCmd = some (w2, b) := by
  cases h : handleMsg env w1 1 mCmd with
  | none => exact absurd (congrArg Option.isSome h) (by decide +kernel)
  | some r => exact ⟨r.2, by unfold w2; rw [h]; rfl⟩

theorem w1_reached : Reached env w1 := by
  obtain ⟨b, h⟩ := w1_step
  exact .message w0_reached h

theorem w2_reached : Reached env w2 := by
  obtain ⟨b, h⟩ := w2_step
  exact .message w1_reached h

end Verif.Sample
