/- C117: the order in which endpoints are configured does not matter. -/
import Verif.Lemmas.Reorder
import Verif.Props.NoLog

namespace Verif

open Verif.Spec

variable {σ : Type}

theorem renum_lt {n : Nat} {ρ : Nat → Nat} (h : Renumbers n ρ) {i : Nat} (hi : i < n) : ρ i < n := by
  have : ρ i ∈ (List.range n).map ρ := List.mem_map.mpr ⟨i, List.mem_range.mpr hi, rfl⟩
  exact List.mem_range.mp (h.perm.mem_iff.mp this)

theorem renum_inj {n : Nat} {ρ : Nat → Nat} (h : Renumbers n ρ) (i j : Nat) (he : ρ i = ρ j) : i = j := by
  by_cases hi : i < n
  · by_cases hj : j < n
    · have hnd : ((List.range n).map ρ).Nodup := h.perm.nodup_iff.mpr List.nodup_range
      have e1 : ((List.range n).map ρ)[i]? = some (ρ i) := by simp [hi]
      have e2 : ((List.range n).map ρ)[j]? = some (ρ i) := by simp [hj, he]
      exact (List.getElem?_inj (by simpa using hi) hnd).mp (e1.trans e2.symm)
    · have := renum_lt h hi
      rw [he, h.rest j (by omega)] at this
      omega
  · by_cases hj : j < n
    · have := renum_lt h hj
      rw [← he, h.rest i (by omega)] at this
      omega
    · rw [h.rest i (by omega), h.rest j (by omega)] at he
      exact he

theorem noLinks_linkGroups (eps : List Ep) (k : Nat) : ((linkGroups eps)[k]?).map noLinks = (eps[k]?).map noLinks := by
  unfold linkGroups
  rw [List.getElem?_mapIdx]
  cases eps[k]? with
  | none => rfl
  | some e =>
    simp only [Option.map_some]
    split <;> rfl

theorem start_reorder (es es' ls : List Ep) (hes : ∀ e ∈ es, e.kind ≠ .log) (hlen : es'.length = es.length) (ρ : Nat → Nat)
    (hρ : Renumbers es.length ρ) (hsame : ∀ i < es.length, es'[i]? = es[ρ i]?) (logs : Nat → σ) :
    Reorder ρ (start (es ++ ls) logs) (start (es' ++ ls) logs) := by
  have hheap : ∀ i, (es' ++ ls)[i]? = (es ++ ls)[ρ i]? := by
    intro i
    by_cases hi : i < es.length
    · rw [List.getElem?_append_left (by omega), List.getElem?_append_left (renum_lt hρ hi), hsame i hi]
    · rw [hρ.rest i (by omega), List.getElem?_append_right (by omega), List.getElem?_append_right (by omega), hlen]
  have hlog : ∀ (xs : List Ep) (i : Nat), isLogEp (linkGroups xs) i = isLogEp xs i := by
    intro xs i
    unfold isLogEp
    have := congrArg (Option.map Ep.kind) (noLinks_linkGroups xs i)
    rw [Option.map_map, Option.map_map] at this
    rw [show Ep.kind ∘ noLinks = Ep.kind from rfl] at this
    rw [this]
  have hA : ∀ i, i < es.length → isLogEp (es ++ ls) i = false := by
    intro i hi
    unfold isLogEp
    rw [List.getElem?_append_left hi, List.getElem?_eq_getElem hi]
    simpa using hes _ (List.getElem_mem hi)
  have hA' : ∀ i, i < es.length → isLogEp (es' ++ ls) i = false := by
    intro i hi
    unfold isLogEp
    rw [hheap i]
    exact hA (ρ i) (renum_lt hρ hi)
  refine ⟨renum_inj hρ, ?_, ?_, ?_, ?_, ⟨List.range es.length, List.range es.length, (List.range ls.length).map (es.length + ·), ?_, ?_, hρ.perm, ?_, ?_, ?_,
    List.nodup_range, List.nodup_range⟩, rfl, rfl, rfl, rfl, rfl, fun _ => rfl⟩
  · intro i hi
    apply hρ.rest
    have : (linkGroups (es ++ ls)).length ≤ i := hi
    simp [linkGroups] at this
    omega
  · simp [start, linkGroups, hlen]
  · intro i
    show ((linkGroups (es' ++ ls))[i]?).map noLinks = ((linkGroups (es ++ ls))[ρ i]?).map noLinks
    rw [noLinks_linkGroups, noLinks_linkGroups, hheap i]
  · intro i hi
    replace hi : isLogEp (linkGroups (es' ++ ls)) i = true := hi
    rw [hlog] at hi
    apply hρ.rest
    apply Decidable.byContradiction
    intro hlt
    rw [hA' i (by omega)] at hi
    cases hi
  · show List.range (es ++ ls).length = _
    rw [List.length_append, List.range_add]
  · show List.range (es' ++ ls).length = _
    rw [List.length_append, List.range_add, hlen]
  · intro i hi
    show isLogEp (linkGroups (es ++ ls)) i = false
    rw [hlog]
    exact hA i (List.mem_range.mp hi)
  · intro i hi
    show isLogEp (linkGroups (es' ++ ls)) i = false
    rw [hlog]
    exact hA' i (List.mem_range.mp hi)
  · intro i hi
    obtain ⟨k, _, rfl⟩ := List.mem_map.mp hi
    exact hρ.rest _ (by omega)

/-- **C117**: two configurations have the same endpoints `es` in different order (endpoint `i` of the second is endpoint `ρ i` of the
first) and the same log endpoints, and the same things happen.  Then the same messages are accepted, every endpoint (the TCP clients
that connect later included) is given the same messages in the same order, the log endpoints end in the same states, and the same number
of undeliverable messages is counted and reported.  The results of writes may differ. -/
theorem C117_order (env env' : Env σ) (hn : SameAll env env') (es es' ls : List Ep) (hc : ConfigOk (es ++ ls))
    (hes : ∀ e ∈ es, e.kind ≠ .log) (hlen : es'.length = es.length) (ρ : Nat → Nat) (hρ : Renumbers es.length ρ)
    (hsame : ∀ i < es.length, es'[i]? = es[ρ i]?) (logs : Nat → σ) (evs : List RouterEv) :
    ∃ w w' as, runRouter env (start (es ++ ls) logs) (evs.map (renameEv ρ)) = some (w, as.map (renameArrival ρ)) ∧
      runRouter env' (start (es' ++ ls) logs) evs = some (w', as) ∧ (∀ i, givenTo w' i = givenTo w (ρ i)) ∧
      w'.logs = w.logs ∧ w'.unknown = w.unknown ∧ w'.reported = w.reported := by
  have hc' : ConfigOk (es' ++ ls) := by
    intro e he
    rcases List.mem_append.mp he with h | h
    · obtain ⟨i, hi⟩ := List.getElem?_of_mem h
      have hlt : i < es.length := by rw [← hlen]; exact (List.getElem?_eq_some_iff.mp hi).1
      rw [hsame i hlt] at hi
      exact hc e (List.mem_append_left _ (List.mem_of_getElem? hi))
    · exact hc e (List.mem_append_right _ h)
  obtain ⟨w, w', as, h1, h2, h3⟩ := runRouter_reorder env env' hn evs _ _ (start_inv _ hc logs) (start_inv _ hc' logs)
    (start_reorder es es' ls hes hlen ρ hρ hsame logs)
  exact ⟨w, w', as, h1, h2, h3.out, h3.logs, h3.unknown, h3.reported⟩

namespace Sample

/-- UART and UDP endpoint in the other order. -/
def swapEps : List Ep := [{ kind := .udp }, { kind := .uart }]

def swap01 (i : Nat) : Nat := if i = 0 then 1 else if i = 1 then 0 else i

theorem swap01_ok : Renumbers 2 swap01 := ⟨by decide, fun i hi => by unfold swap01; rw [if_neg (by omega), if_neg (by omega)]⟩

end Sample

/-- The heartbeat on the UART goes to the UDP endpoint and the client, in either order; the PX4 log
asks for data on the UART and edits the packet of the stream before the client gets it. -/
example : SameAll Sample.lrEnv { Sample.lrEnv with wres := fun _ => -11 } ∧ ConfigOk ([{ kind := .uart }, { kind := .udp }] ++ Sample.lrEps.drop 2) ∧
    Renumbers 2 Sample.swap01 ∧
    (runRouter { Sample.lrEnv with wres := fun _ => -11 } (start (Sample.swapEps ++ Sample.lrEps.drop 2) Sample.lrLogs)
      [.accept, .read 1 (.got Sample.hb2.encode), .logCall 2 .start, .read 1 (.got Sample.ulogFrame.encode)]).map (fun r => ((givenTo r.1 0).length,
        (givenTo r.1 0 == [(Sample.hb2.encode, false), (Sample.ulogFrame.encode, false)]), (givenTo r.1 1).length, (givenTo r.1 4).length,
        givenTo r.1 4 == givenTo r.1 0)) = some (2, true, 1, 2, false) ∧
    (runRouter Sample.lrEnv (start Sample.lrEps Sample.lrLogs)
      [.accept, .read 0 (.got Sample.hb2.encode), .logCall 2 .start, .read 0 (.got Sample.ulogFrame.encode)]).map (fun r => ((givenTo r.1 1).length,
        (givenTo r.1 1 == [(Sample.hb2.encode, false), (Sample.ulogFrame.encode, false)]), (givenTo r.1 0).length, (givenTo r.1 4).length,
        givenTo r.1 4 == givenTo r.1 1)) = some (2, true, 1, 2, false) :=
  ⟨⟨⟨rfl, rfl, rfl, rfl, rfl⟩, rfl, rfl⟩, Sample.lrEps_ok, Sample.swap01_ok, by decide +kernel, by decide +kernel⟩

end Verif
