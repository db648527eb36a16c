import Verif.Spec.Open

/-
C96 descriptors of links, C97 waiting for a link.
-/

namespace Verif

open Spec

/-- The descriptors the links hold. -/
def heldFds (ls : List ProcLink) : List Nat := ls.filterMap (·.fd)

theorem openAfter_append (fds : List Nat) (a b : List Call) :
    openAfter fds (a ++ b) = openAfter (openAfter fds a) b := by
  induction a generalizing fds with
  | nil => rfl
  | cons c cs ih => cases c <;> simp [openAfter, ih]

theorem nonblocking_append (fds : List Nat) (a b : List Call) :
    nonblocking fds (a ++ b) = nonblocking (nonblocking fds a) b := by
  induction a generalizing fds with
  | nil => rfl
  | cons c cs ih => cases c <;> simp [nonblocking, ih]

/-- Calls of an opening function that keep the accounts and make the descriptor non-blocking. -/
structure GoodOpen (p : Option Nat × List Call) : Prop where
  acc : ∀ fds, openAfter fds p.2 = p.1.toList ++ fds
  keep : ∀ nbs x, x ∈ nbs → (∀ fd nb, .opened fd nb ∈ p.2 → x ≠ fd) → x ∈ nonblocking nbs p.2
  nb : ∀ nbs fd, p.1 = some fd → fd ∈ nonblocking nbs p.2

theorem udpOpen_good (sv g : Bool) (r : UdpRes) : GoodOpen (udpOpen sv g r) := by
  obtain ⟨s, j, b, br, f⟩ := r
  cases s with
  | none => constructor <;> simp [udpOpen, udpSocket, openAfter, nonblocking]
  | some fd =>
    cases sv <;> cases g <;> cases j <;> cases b <;> cases br <;> cases f <;>
      constructor <;> simp +contextual [udpOpen, udpSocket, openAfter, nonblocking]

theorem uartOpenFd_good (o : Option Nat) (st : List Bool) : GoodOpen (uartOpenFd o st) := by
  cases o with
  | none => constructor <;> simp [uartOpenFd, openAfter, nonblocking]
  | some fd =>
    unfold uartOpenFd
    by_cases h : st.all id <;> simp only [h] <;>
      constructor <;> simp +contextual [openAfter, nonblocking]

theorem tcpListen_good (s : Option Nat) (b l : Bool) : GoodOpen (tcpListen s b l) := by
  cases s with
  | none => constructor <;> simp [tcpListen, openAfter, nonblocking]
  | some fd =>
    cases b <;> cases l <;> constructor <;> simp +contextual [tcpListen, openAfter, nonblocking]

theorem tcpAccept_good (a : Option Nat) (n : Bool) : GoodOpen (tcpAccept a n) := by
  cases a with
  | none => constructor <;> simp [tcpAccept, openAfter, nonblocking]
  | some fd => cases n <;> constructor <;> simp +contextual [tcpAccept, openAfter, nonblocking]

theorem tcpOpen_good (r : TcpRes) : GoodOpen (tcpOpen false r) := by
  obtain ⟨s, c, f⟩ := r
  cases s with
  | none => constructor <;> simp [tcpOpen, openAfter, nonblocking]
  | some fd =>
    cases c <;> cases f <;> constructor <;> simp +contextual [tcpOpen, openAfter, nonblocking]

theorem heldFds_append (ls : List ProcLink) (l : ProcLink) :
    heldFds (ls ++ [l]) = heldFds ls ++ l.fd.toList := by
  cases h : l.fd <;> simp [heldFds, h]

theorem heldFds_set (ls : List ProcLink) (i : Nat) (l l' : ProcLink) (h : ls[i]? = some l) :
    (heldFds (ls.set i l') ++ l.fd.toList).Perm (heldFds ls ++ l'.fd.toList) := by
  induction ls generalizing i with
  | nil => simp at h
  | cons a as ih =>
    cases i with
    | zero =>
      simp only [List.getElem?_cons_zero, Option.some.injEq] at h
      subst h
      have e1 : ∀ (x : ProcLink), heldFds (x :: as) = x.fd.toList ++ heldFds as := by
        intro x; cases hx : x.fd <;> simp [heldFds, hx]
      simp only [List.set_cons_zero, e1]
      refine List.perm_iff_count.2 fun x => ?_
      simp only [List.count_append]
      omega
    | succ i =>
      have e1 : ∀ (x : List ProcLink), heldFds (a :: x) = a.fd.toList ++ heldFds x := by
        intro x; cases hx : a.fd <;> simp [heldFds, hx]
      simp only [List.set_cons_succ, e1, List.append_assoc]
      exact (ih i (by simpa using h)).append_left _

theorem openAfter_nodup_from (pre cs : List Call) (h0 : (openAfter [] pre).Nodup) (h : FreshFds (pre ++ cs)) :
    (openAfter [] (pre ++ cs)).Nodup := by
  induction cs generalizing pre with
  | nil => simpa using h0
  | cons c cs ih =>
    have e : pre ++ c :: cs = (pre ++ [c]) ++ cs := by simp
    rw [e]
    refine ih _ ?_ (e ▸ h)
    rw [openAfter_append]
    cases c with
    | opened fd nb => simpa [openAfter, h0] using h pre fd nb cs rfl
    | setNonblock fd => simpa [openAfter] using h0
    | connect fd => simpa [openAfter] using h0
    | closed fd => simpa [openAfter] using h0.erase fd

/-- With fresh descriptors none is open twice. -/
theorem openAfter_nodup (cs : List Call) (h : FreshFds cs) : (openAfter [] cs).Nodup :=
  openAfter_nodup_from [] cs (by simp [openAfter]) h

/-- No TCP client has an address seen as multicast. -/
def NoTcpGroup (es : List ProcEv) : Prop := ∀ r, .tcp true r ∉ es

/-- What holds after every history: the accounts, up to descriptors lost, and that held descriptors do not block. -/
structure ProcInv (ng : Prop) (cs : List Call) (ls : List ProcLink) : Prop where
  acc : ∃ lost, (ng → lost = []) ∧ (openAfter [] cs).Perm (heldFds ls ++ lost)
  nb : FreshFds cs → ∀ fd ∈ heldFds ls, fd ∈ nonblocking [] cs
  noGroup : ng → ∀ l ∈ ls, l.tcpGroup ≠ some true

theorem Spec.FreshFds.left {a b : List Call} (h : FreshFds (a ++ b)) : FreshFds a :=
  fun pre fd nb post e => h pre fd nb (post ++ b) (by simp [e])

/-- Calls that open at most one descriptor, as the first call. -/
def OpensFirst (cs : List Call) : Prop := ∀ fd nb, .opened fd nb ∈ cs → ∃ t, cs = .opened fd nb :: t

theorem opens_fresh {a b : List Call} (h : FreshFds (a ++ b)) (ho : OpensFirst b) (fd : Nat) (nb : Bool)
    (hm : .opened fd nb ∈ b) : fd ∉ openAfter [] a := by
  obtain ⟨t, rfl⟩ := ho fd nb hm
  exact h a fd nb t rfl

theorem ProcInv.add {ng : Prop} {cs : List Call} {ls : List ProcLink} (h : ProcInv ng cs ls)
    (p : Option Nat × List Call) (hg : GoodOpen p) (ho : OpensFirst p.2) (ls' : List ProcLink)
    (hp : (heldFds ls').Perm (heldFds ls ++ p.1.toList)) (hn : ng → ∀ l ∈ ls', l.tcpGroup ≠ some true) :
    ProcInv ng (cs ++ p.2) ls' := by
  obtain ⟨lost, hl, hperm⟩ := h.acc
  refine ⟨⟨lost, hl, ?_⟩, fun hf fd hfd => ?_, hn⟩
  · rw [openAfter_append, hg.acc]
    refine List.perm_iff_count.2 fun x => ?_
    have h1 := List.perm_iff_count.1 hperm x
    have h2 := List.perm_iff_count.1 hp x
    simp only [List.count_append] at h1 h2 ⊢
    omega
  · rw [nonblocking_append]
    rcases List.mem_append.1 (hp.mem_iff.1 hfd) with hin | hin
    · refine hg.keep _ _ (h.nb hf.left fd hin) fun fd' nb hm => ?_
      have := opens_fresh hf ho fd' nb hm
      intro e
      subst e
      exact this (hperm.mem_iff.2 (List.mem_append_left _ hin))
    · exact hg.nb _ _ (by simpa using hin)

theorem udpOpen_first (sv g : Bool) (r : UdpRes) : OpensFirst (udpOpen sv g r).2 := by
  obtain ⟨s, j, b, br, f⟩ := r
  cases s with
  | none => intro fd nb; simp [udpOpen, udpSocket]
  | some fd =>
    intro fd' nb
    cases sv <;> cases g <;> cases j <;> cases b <;> cases br <;> cases f <;> simp +contextual [udpOpen, udpSocket]

theorem uartOpenFd_first (o : Option Nat) (st : List Bool) : OpensFirst (uartOpenFd o st).2 := by
  cases o with
  | none => intro fd nb; simp [uartOpenFd]
  | some fd => intro fd' nb; unfold uartOpenFd; by_cases h : st.all id <;> simp +contextual [h]

theorem tcpListen_first (s : Option Nat) (b l : Bool) : OpensFirst (tcpListen s b l).2 := by
  intro fd' nb
  cases s <;> cases b <;> cases l <;> simp +contextual [tcpListen]

theorem tcpAccept_first (a : Option Nat) (n : Bool) : OpensFirst (tcpAccept a n).2 := by
  intro fd' nb
  cases a <;> cases n <;> simp +contextual [tcpAccept]

theorem tcpOpen_first (g : Bool) (r : TcpRes) : OpensFirst (tcpOpen g r).2 := by
  obtain ⟨s, c, f⟩ := r
  intro fd' nb
  cases s <;> cases g <;> cases c <;> cases f <;> simp +contextual [tcpOpen]

/-- An attempt with an address seen as multicast loses a descriptor; the others are as before. -/
theorem ProcInv.lose {ng : Prop} {cs : List Call} {ls : List ProcLink} (h : ProcInv ng cs ls) (hng : ¬ ng)
    (r : TcpRes) (ls' : List ProcLink) (hp : (heldFds ls').Perm (heldFds ls)) :
    ProcInv ng (cs ++ (tcpOpen true r).2) ls' := by
  obtain ⟨lost, hl, hperm⟩ := h.acc
  obtain ⟨s, c, f⟩ := r
  cases s with
  | none =>
    simp only [tcpOpen, List.append_nil]
    exact ⟨⟨lost, hl, hperm.trans (hp.symm.append_right _)⟩,
      fun hf fd hfd => h.nb hf fd (hp.mem_iff.1 hfd), fun hn => absurd hn hng⟩
  | some d =>
    simp only [tcpOpen]
    refine ⟨⟨d :: lost, fun hn => absurd hn hng, ?_⟩, fun hf fd hfd => ?_, fun hn => absurd hn hng⟩
    · rw [openAfter_append]
      refine List.perm_iff_count.2 fun x => ?_
      have h1 := List.perm_iff_count.1 hperm x
      have h2 := List.perm_iff_count.1 hp x
      simp only [openAfter, if_true, List.count_append, List.count_cons] at h1 h2 ⊢
      omega
    · rw [nonblocking_append]
      have h3 := hp.mem_iff.1 hfd
      have h4 : d ∉ openAfter [] cs := hf cs d false [] rfl
      have h5 : fd ≠ d := fun e => h4 (e ▸ hperm.mem_iff.2 (List.mem_append_left _ h3))
      simpa [nonblocking, h5] using h.nb hf.left fd h3

theorem ProcInv.step {ng : Prop} {cs : List Call} {ls : List ProcLink} (h : ProcInv ng cs ls) (e : ProcEv)
    (he : ng → ∀ r, e ≠ .tcp true r) : ProcInv ng (cs ++ (procStep ls e).2) (procStep ls e).1 := by
  have app : ∀ (l : ProcLink), (ng → l.tcpGroup ≠ some true) → ng → ∀ x ∈ ls ++ [l], x.tcpGroup ≠ some true := by
    intro l hl hn x hx
    rcases List.mem_append.1 hx with hx | hx
    · exact h.noGroup hn x hx
    · simp only [List.mem_singleton] at hx
      exact hx ▸ hl hn
  have st : ∀ (i : Nat) (l : ProcLink), (ng → l.tcpGroup ≠ some true) → ng →
      ∀ x ∈ ls.set i l, x.tcpGroup ≠ some true := by
    intro i l hl hn x hx
    rcases List.mem_or_eq_of_mem_set hx with hx | hx
    · exact h.noGroup hn x hx
    · exact hx ▸ hl hn
  cases e with
  | uart o s =>
    exact h.add _ (uartOpenFd_good o s) (uartOpenFd_first o s) _ (by simp only [procStep]; rw [heldFds_append])
      (app _ (by simp))
  | udp sv g r =>
    exact h.add _ (udpOpen_good sv g r) (udpOpen_first sv g r) _ (by simp only [procStep]; rw [heldFds_append]) (app _ (by simp))
  | listen s b l =>
    exact h.add _ (tcpListen_good s b l) (tcpListen_first s b l) _ (by simp only [procStep]; rw [heldFds_append]) (app _ (by simp))
  | accept a n =>
    exact h.add _ (tcpAccept_good a n) (tcpAccept_first a n) _ (by simp only [procStep]; rw [heldFds_append]) (app _ (by simp))
  | tcp g r =>
    cases g with
    | false =>
      exact h.add _ (tcpOpen_good r) (tcpOpen_first false r) _ (by simp only [procStep]; rw [heldFds_append]) (app _ (by simp))
    | true =>
      refine h.lose (fun hn => he hn r rfl) r _ ?_
      simp only [procStep]
      rw [heldFds_append]
      have : (tcpOpen true r).1 = none := by unfold tcpOpen; split <;> simp
      simp [this]
  | retry i r =>
    simp only [procStep]
    split
    case h_1 g hi =>
      have hp := heldFds_set ls i _ { tcpGroup := some g, fd := (tcpOpen g r).1 } hi
      simp only [Option.toList_none, List.append_nil] at hp
      cases g with
      | false =>
        exact h.add _ (tcpOpen_good r) (tcpOpen_first false r) _ hp (st _ _ (by simp))
      | true =>
        have hm := List.mem_of_getElem? hi
        refine h.lose (fun hn => h.noGroup hn _ hm rfl) r _ ?_
        have : (tcpOpen true r).1 = none := by unfold tcpOpen; split <;> simp
        simpa [this] using hp
    case h_2 => simpa using h
  | close i =>
    simp only [procStep]
    split
    case h_1 g fd hi =>
      have hp := heldFds_set ls i _ { tcpGroup := g, fd := none } hi
      simp only [Option.toList_none, List.append_nil, Option.toList_some] at hp
      obtain ⟨lost, hl, hperm⟩ := h.acc
      have hm := List.mem_of_getElem? hi
      refine ⟨⟨lost, hl, ?_⟩, fun hf x hx => ?_, st _ _ (fun hn => have h3 := h.noGroup hn _ hm; h3)⟩
      · rw [openAfter_append]
        refine List.perm_iff_count.2 fun x => ?_
        have h1 := List.perm_iff_count.1 hperm x
        have h2 := List.perm_iff_count.1 hp x
        simp only [openAfter, List.count_append, List.count_erase, List.count_cons, List.count_nil] at h1 h2 ⊢
        by_cases hx : fd = x
        · subst hx
          simp only [beq_self_eq_true, if_true] at h1 h2 ⊢
          omega
        · simp only [beq_iff_eq, hx, if_false] at h1 h2 ⊢
          omega
      · have hnd : (heldFds ls ++ lost).Nodup := hperm.nodup_iff.1 (openAfter_nodup _ hf.left)
        have hnd2 : (heldFds (ls.set i { tcpGroup := g, fd := none }) ++ [fd]).Nodup :=
          hp.nodup_iff.2 (List.nodup_append.1 hnd).1
        have hne : x ≠ fd := (List.nodup_append.1 hnd2).2.2 x hx fd (by simp)
        rw [nonblocking_append]
        have := h.nb hf.left x (hp.mem_iff.1 (List.mem_append_left _ hx))
        simpa [nonblocking, hne] using this
    case h_2 => simpa using h

theorem ProcInv.run {ng : Prop} {cs : List Call} {ls : List ProcLink} (h : ProcInv ng cs ls) (es : List ProcEv)
    (he : ng → NoTcpGroup es) : ProcInv ng (cs ++ (procRun ls es).2) (procRun ls es).1 := by
  induction es generalizing cs ls with
  | nil => simpa [procRun] using h
  | cons e es ih =>
    simp only [procRun]
    rw [← List.append_assoc]
    refine ih (h.step e fun hn r e' => he hn r (by simp [e'])) fun hn r hr => he hn r (by simp [hr])

theorem ProcInv.start (ng : Prop) : ProcInv ng [] [] :=
  ⟨⟨[], fun _ => rfl, by simp [openAfter, heldFds]⟩, fun _ fd h => by simp [heldFds] at h, fun _ l h => by simp at h⟩

/-
C96: the descriptors open are those of the links.
-/

/-- C96 (part): whatever calls fail and whatever happens to the links, as long as no TCP client has an address seen as
multicast: the descriptors open are those the links hold, each once.  Missing: such TCP clients, where it is false
(`C96_violated`). -/
theorem C96_no_leak_partial (es : List ProcEv) (h : NoTcpGroup es) :
    (openAfter [] (procRun [] es).2).Perm (heldFds (procRun [] es).1) := by
  obtain ⟨lost, hl, hp⟩ := ((ProcInv.start True).run es (fun _ => h)).acc
  simpa [hl trivial] using hp

/-- So when all links are gone nothing is left open. -/
theorem C96_all_closed_partial (es : List ProcEv) (h : NoTcpGroup es)
    (hc : ∀ l ∈ (procRun [] es).1, l.fd = none) : openAfter [] (procRun [] es).2 = [] := by
  have hp := C96_no_leak_partial es h
  have : heldFds (procRun [] es).1 = [] := by
    simp only [heldFds, List.filterMap_eq_nil_iff]
    exact hc
  rw [this] at hp
  exact hp.eq_nil

namespace Sample

/-- A UDP server, a TCP client that cannot connect at first, a serial port where a setting fails, a lost connection. -/
def linkHistory : List ProcEv :=
  [.udp true false { socket := some 5 }, .tcp false { socket := some 6, connect := false },
   .uart (some 6) [true, false], .retry 1 { socket := some 6, connect := false }, .retry 1 { socket := some 6 },
   .close 1, .retry 1 { socket := some 6 }]

/-- A multicast address the validation accepts. -/
def groupIp : List UInt8 := ascii "[ff02::1]"

end Sample

example : NoTcpGroup Sample.linkHistory ∧ heldFds (procRun [] Sample.linkHistory).1 = [5, 6] ∧
    openAfter [] (procRun [] Sample.linkHistory).2 = [6, 5] := by
  refine ⟨fun r h => ?_, by decide, by decide⟩
  simp [Sample.linkHistory] at h

/-- The history of a TCP client with a multicast address: `n` further attempts, each creating a socket. -/
def groupAttempts (n : Nat) : List ProcEv :=
  .tcp (tcpSeesGroup Sample.groupIp) { socket := some 5 } ::
    (List.range n).map fun i => .retry 0 { socket := some (6 + i) }

theorem groupRetries (fds ns : List Nat) :
    (procRun [{ tcpGroup := some true, fd := none }] (ns.map fun i => .retry 0 { socket := some (6 + i) })).1 =
      [{ tcpGroup := some true, fd := none }] ∧
    openAfter fds (procRun [{ tcpGroup := some true, fd := none }]
      (ns.map fun i => .retry 0 { socket := some (6 + i) })).2 = (ns.map (6 + ·)).reverse ++ fds := by
  induction ns generalizing fds with
  | nil => simp [procRun, openAfter]
  | cons n ns ih =>
    have h := ih ((6 + n) :: fds)
    simp only [List.map_cons, procRun, procStep, List.getElem?_cons_zero, tcpOpen, if_true, List.set_cons_zero]
    refine ⟨h.1, ?_⟩
    rw [openAfter_append]
    simp only [openAfter]
    rw [h.2]
    simp

/-- C96 is false: a TCP client with a multicast address is accepted, and every attempt to connect leaves a descriptor
open that no link holds. -/
theorem C96_violated :
    validIp Sample.groupIp = true ∧ ∀ n, heldFds (procRun [] (groupAttempts n)).1 = [] ∧
      (openAfter [] (procRun [] (groupAttempts n)).2).length = n + 1 := by
  refine ⟨by decide, fun n => ?_⟩
  have hg : tcpSeesGroup Sample.groupIp = true := by decide
  have h := groupRetries [5] (List.range n)
  simp only [groupAttempts, hg, procRun, procStep, tcpOpen, if_true, List.nil_append]
  refine ⟨?_, ?_⟩
  · rw [h.1]; rfl
  · rw [openAfter_append]
    simp only [openAfter]
    rw [h.2]
    simp

/-
C97: no call waits for a link.
-/

/-- C97 (part): whatever calls fail and whatever happens to the links, every descriptor a link reads from or writes to is
non-blocking.  Missing: connecting, where it is false (`C97_violated`). -/
theorem C97_nonblocking_partial (es : List ProcEv) (hf : FreshFds (procRun [] es).2) :
    ∀ l ∈ (procRun [] es).1, ∀ fd, l.fd = some fd → fd ∈ nonblocking [] (procRun [] es).2 := by
  intro l hl fd hfd
  refine ((ProcInv.start False).run es (fun h => h.elim)).nb hf fd ?_
  exact List.mem_filterMap.2 ⟨l, hl, hfd⟩

/-- A check for fresh descriptors. -/
def freshCheck (fds : List Nat) : List Call → Bool
  | [] => true
  | .opened fd _ :: cs => !fds.contains fd && freshCheck (fd :: fds) cs
  | .closed fd :: cs => freshCheck (fds.erase fd) cs
  | _ :: cs => freshCheck fds cs

theorem freshCheck_sound (cs : List Call) (h : freshCheck [] cs = true) : FreshFds cs := by
  intro pre fd nb post e
  subst e
  suffices hh : ∀ (fds : List Nat), freshCheck fds (pre ++ .opened fd nb :: post) = true → fd ∉ openAfter fds pre from
    hh [] h
  clear h
  induction pre with
  | nil =>
    intro fds h
    simp only [List.nil_append, freshCheck, Bool.and_eq_true, Bool.not_eq_true', List.contains_eq_mem,
      decide_eq_false_iff_not] at h
    exact h.1
  | cons c cs ih =>
    intro fds h
    cases c with
    | opened a b =>
      simp only [List.cons_append, freshCheck, Bool.and_eq_true] at h
      exact ih _ h.2
    | setNonblock a => exact ih _ h
    | connect a => exact ih _ h
    | closed a => exact ih _ h

example : FreshFds (procRun [] Sample.linkHistory).2 ∧ nonblocking [] (procRun [] Sample.linkHistory).2 = [6, 5] :=
  ⟨freshCheck_sound _ (by decide), by decide⟩

/-- Without TCP clients nothing waits. -/
theorem C97_no_wait_partial (es : List ProcEv) (h : ∀ e ∈ es, ∀ g r, e ≠ .tcp g r) :
    ¬ MayBlock (procRun [] es).2 := by
  have key : ∀ (es : List ProcEv) (ls : List ProcLink), (∀ l ∈ ls, l.tcpGroup = none) →
      (∀ e ∈ es, ∀ g r, e ≠ .tcp g r) → ∀ fd, Call.connect fd ∉ (procRun ls es).2 := by
    intro es
    induction es with
    | nil => intro ls _ _ fd; simp [procRun]
    | cons e es ih =>
      intro ls hls he fd
      have hs : (∀ l ∈ (procStep ls e).1, l.tcpGroup = none) ∧ Call.connect fd ∉ (procStep ls e).2 := by
        have app : ∀ x : Option Nat, ∀ l ∈ ls ++ [{ fd := x }], l.tcpGroup = none := by
          intro x l hl
          rcases List.mem_append.1 hl with hl | hl
          · exact hls l hl
          · simp only [List.mem_singleton] at hl
            exact hl ▸ rfl
        cases e with
        | uart o s =>
          refine ⟨app _, ?_⟩
          simp only [procStep, uartOpenFd]
          split
          · simp
          · split <;> simp
        | udp sv g r =>
          refine ⟨app _, ?_⟩
          obtain ⟨s, j, b, br, f⟩ := r
          cases s <;> cases sv <;> cases g <;> cases j <;> cases b <;> cases br <;> cases f <;>
            simp [procStep, udpOpen, udpSocket]
        | tcp g r => exact absurd rfl (he _ (by simp) g r)
        | listen s b l => exact ⟨app _, by cases s <;> cases b <;> cases l <;> simp [procStep, tcpListen]⟩
        | accept a n => exact ⟨app _, by cases a <;> cases n <;> simp [procStep, tcpAccept]⟩
        | retry i r =>
          simp only [procStep]
          split
          case h_1 g hi => exact absurd (hls _ (List.mem_of_getElem? hi)) (by simp)
          case h_2 => exact ⟨hls, by simp⟩
        | close i =>
          simp only [procStep]
          split
          case h_1 g d hi =>
            refine ⟨fun l hl => ?_, by simp⟩
            rcases List.mem_or_eq_of_mem_set hl with hl | hl
            · exact hls l hl
            · have := hls _ (List.mem_of_getElem? hi)
              subst hl
              exact this
          case h_2 => exact ⟨hls, by simp⟩
      simp only [procRun, List.mem_append, not_or]
      exact ⟨hs.2, ih _ hs.1 (fun e he' => he e (by simp [he'])) fd⟩
  rintro ⟨pre, fd, post, e, _⟩
  exact key es [] (by simp) h fd (by simp [e])

/-- C97 is false: whenever a TCP client has a socket, it calls `connect` on a blocking descriptor, also when it tries
again while other links are in use. -/
theorem C97_violated (fd : Nat) (c f : Bool) (ls : List ProcLink) (i : Nat)
    (hi : ls[i]? = some { tcpGroup := some false, fd := none }) :
    MayBlock (procStep ls (.retry i { socket := some fd, connect := c, fcntl := f })).2 := by
  refine ⟨[.opened fd false], fd, ?_, ?_, by simp [nonblocking]⟩
  · exact if c && f then [.setNonblock fd] else [.closed fd]
  · simp only [procStep, hi]
    cases c <;> cases f <;> simp [tcpOpen]

/-- Such a state is reached: a UDP server is in use, the TCP client could not connect at first. -/
example : (procRun [] [.udp true false { socket := some 5 }, .tcp false { socket := some 6, connect := false }]).1[1]? =
    some { tcpGroup := some false, fd := none } := by decide

end Verif
