import Verif.Props.Bridge
import Verif.Props.Start

/-
C125 from the start of the program: which configurations make the router a transparent hub.
-/

namespace Verif

open Spec Spec.Conf

variable {σ : Type}

/-- The settings of an endpoint section that restrict or group an endpoint. -/
def Spec.Conf.restricting : List String :=
  ["Filter", "AllowMsgIdOut", "BlockMsgIdOut", "AllowSrcCompOut", "BlockSrcCompOut", "AllowSrcSysOut", "BlockSrcSysOut",
   "AllowMsgIdIn", "BlockMsgIdIn", "AllowSrcCompIn", "BlockSrcCompIn", "AllowSrcSysIn", "BlockSrcSysIn", "Group"]

theorem fromSection_plain {ds : List Decl} {sec : List UInt8} {e : Ep} (h : FromSection ds sec e)
    (hn : ∀ k ∈ restricting, lastSet ds sec (ascii k) = none) : e.filters = {} ∧ e.group = "" := by
  obtain ⟨_, hf, ⟨l, l', hl, hl', ho⟩, hg⟩ := h
  constructor
  · have e1 := hl.1 (hn _ (by decide))
    have e2 := hl'.1 (hn _ (by decide))
    rw [e1, e2, List.append_nil, ite_self] at ho
    have a1 := hf.blockOutMsg.1 (hn _ (by decide))
    have a2 := hf.allowOutComp.1 (hn _ (by decide))
    have a3 := hf.blockOutComp.1 (hn _ (by decide))
    have a4 := hf.allowOutSys.1 (hn _ (by decide))
    have a5 := hf.blockOutSys.1 (hn _ (by decide))
    have a6 := hf.allowInMsg.1 (hn _ (by decide))
    have a7 := hf.blockInMsg.1 (hn _ (by decide))
    have a8 := hf.allowInComp.1 (hn _ (by decide))
    have a9 := hf.blockInComp.1 (hn _ (by decide))
    have a10 := hf.allowInSys.1 (hn _ (by decide))
    have a11 := hf.blockInSys.1 (hn _ (by decide))
    generalize e.filters = f at *
    cases f
    simp only at *
    subst ho a1 a2 a3 a4 a5 a6 a7 a8 a9 a10 a11
    rfl
  · rw [hg, hn "Group" (by decide)]; rfl

/-- **C125** from the start: whatever the command line and configuration files say, if no endpoint section sets a filter or a group,
de-duplication is off and the TCP clients are connected, the running router is a hub in the sense of `C125_hub`. -/
theorem C125_started (h : Host) (argv : List (List UInt8)) (r : Running) (hr : mainStart h argv = .runs r) :
    ∃ files ds, FilesUsed h argv files ∧ FilesRead files ds ∧
      ((∀ sec, Declared ds sec → ∀ k ∈ restricting, lastSet ds sec (ascii k) = none) → r.dedup = 0 →
        (∀ (j : Nat) e, r.eps[j]? = some e → e.kind = .tcp → h.opens j = true) →
        ∀ env : Env σ, TableOk env.tbl → env.dedupPeriod = r.dedup → Hub env r.eps) := by
  obtain ⟨files, ds, h1, h2, hc, he, _⟩ := C92_endpoints h argv r hr
  refine ⟨files, ds, h1, h2, fun hn hd ho env ht hde => ⟨ht, C92_links_first h argv r hr, hde.trans hd, hc, ?_⟩⟩
  intro e hm
  have hplain : e.filters = {} ∧ e.group = "" := by
    rcases he e hm with ⟨sec, hs, hf⟩ | hp
    · exact fromSection_plain hf (hn sec hs)
    · exact hp
  refine ⟨hplain.1, hplain.2, ?_⟩
  obtain ⟨j, hj⟩ := List.getElem?_of_mem hm
  obtain ⟨_, _, us, pu, vs, pv, ws, pw, logs, _, _, _, _, _, _, _, _, _, _, _, _, hopen⟩ := C92_one_each h argv r hr
  have hopen := hopen j e hj
  obtain ⟨_, _, _, c, _, _, _, _, _, h6, _⟩ := mainStart_runs hr
  rw [addEndpoints_eps h6] at hm
  simp only [List.mem_append, List.mem_map] at hm
  rcases hm with ((⟨o, _, rfl⟩ | ⟨o, _, rfl⟩) | ⟨x, _, rfl⟩) | hm
  · exact ⟨rfl, rfl⟩
  · exact ⟨rfl, rfl⟩
  · exact ⟨(hopen rfl).trans (ho j _ hj rfl), rfl⟩
  · unfold LogConf.endpoints at hm
    split at hm
    · cases hm
    · split at hm
      · simp only [List.mem_cons, List.not_mem_nil, or_false, or_self] at hm
        subst hm; exact ⟨rfl, rfl⟩
      · simp only [List.mem_cons, List.not_mem_nil, or_false] at hm
        subst hm; exact ⟨rfl, rfl⟩

/-- A computer without configuration files and with one serial port. -/
def Sample.bareHost : Host := { isChr := fun a => a = ascii "/dev/ttyS0" }

def Sample.bridgeArgs : List (List UInt8) := [ascii "-e", ascii "10.0.0.1:14550", ascii "/dev/ttyS0:57600"]

/-- `mavlink-routerd -e 10.0.0.1:14550 /dev/ttyS0:57600` is the bridge of `Sample.bridge_hub`: its conditions hold. -/
example : ∃ r, mainStart Sample.bareHost Sample.bridgeArgs = .runs r ∧ r.eps = Sample.epsBridge ∧ r.dedup = 0 ∧
    Hub Sample.envQuiet r.eps := by
  have hr : ∃ r, mainStart Sample.bareHost Sample.bridgeArgs = .runs r ∧ r.eps = Sample.epsBridge ∧ r.dedup = 0 := by
    refine ⟨⟨Sample.epsBridge, 0, 0, some 5760, false, {}⟩, ?_, rfl, rfl⟩
    decide +kernel
  obtain ⟨r, hr, he, hd⟩ := hr
  refine ⟨r, hr, he, hd, ?_⟩
  obtain ⟨files, ds, ⟨ms, cs, hm, hc, rfl⟩, h2, h⟩ := C125_started Sample.bareHost Sample.bridgeArgs r hr
  have e1 : ms = [] := by
    rcases hm with ⟨_, h⟩ | ⟨c, h, _⟩
    · exact h
    · cases h
  have e2 : cs = [] := by
    rcases hc with ⟨_, h⟩ | ⟨es, _, h, _⟩
    · exact h
    · cases h
  subst e1 e2
  cases h2
  refine h (fun sec _ k _ => rfl) hd (fun j e hj hk => rfl) _ Sample.bridge_hub.table ?_
  rw [hd]; exact Sample.bridge_hub.dedup

end Verif
