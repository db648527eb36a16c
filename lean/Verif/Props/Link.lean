import Verif.Spec.Link

/- Properties C26, C27 (UDP peer), C30 (baud rate search), C31 (writing). -/

namespace Verif
open Spec

/-! ### C26 -/

theorem run_append (u : Udp) (es fs : List UdpEv) :
    (u.run (es ++ fs)).1 = ((u.run es).1.run fs).1 := by
  induction es generalizing u with
  | nil => rfl
  | cons e es ih => simp only [List.cons_append, Udp.run]; exact ih _

theorem step_const (u : Udp) (e : UdpEv) : (u.step e).1.config = u.config ∧ (u.step e).1.hasTimer = u.hasTimer := by
  cases e with
  | recv now r => cases r <;> simp [Udp.step]
  | timer now =>
    simp only [Udp.step]
    split
    · exact ⟨rfl, rfl⟩
    · split <;> exact ⟨rfl, rfl⟩
  | write _ _ => simp [Udp.step]

theorem run_const (u : Udp) (es : List UdpEv) : (u.run es).1.config = u.config ∧ (u.run es).1.hasTimer = u.hasTimer := by
  induction es generalizing u with
  | nil => exact ⟨rfl, rfl⟩
  | cons e es ih =>
    simp only [Udp.run]
    rw [(ih _).1, (ih _).2]
    exact step_const u e

theorem server_peer (es : List UdpEv) : ∀ (u : Udp), u.hasTimer = false → u.deadline = none →
    (u.run es).1.peer = (lastSender es).getD u.peer := by
  induction es with
  | nil => intro u _ _; rfl
  | cons e es ih =>
    intro u h1 h2
    have hd : (u.step e).1.deadline = none := by
      cases e with
      | recv now r => cases r <;> simp [Udp.step, h1, h2]
      | timer now => simp [Udp.step, h2]
      | write _ _ => simpa [Udp.step] using h2
    simp only [Udp.run]
    rw [ih _ ((step_const u e).2.trans h1) hd]
    simp only [lastSender]
    cases lastSender es with
    | some a => rfl
    | none =>
      cases e with
      | recv now r => cases r <;> rfl
      | timer now => simp [Udp.step, h2]
      | write _ _ => rfl

/-- **C26**: a UDP endpoint in server mode, after any history of datagrams, errors, timer events and writes, issues no
`sendto` for a message if nothing was received yet, and otherwise sends it to the address of the most recent
datagram (unless that datagram carries the source port 0, which cannot be sent to). -/
theorem C26_last_sender (ip port : Nat) (ok : Bool) (h : List UdpEv) (now : Nat) (msg : List UInt8) :
    (((Udp.opened true ip port ok).run h).1.step (.write now msg)).2 =
      match lastSender h with
      | none => none
      | some a => if a.port = 0 then none else some a := by
  have := server_peer h (Udp.opened true ip port ok) (by simp [Udp.opened]) rfl
  simp only [Udp.step, this]
  cases lastSender h with
  | none => simp [Udp.opened]
  | some a => rfl

/-- Nothing is sent in a whole history without reception. -/
theorem C26_silent (ip port : Nat) (ok : Bool) (h : List UdpEv) (hn : ∀ e ∈ h, isDatagram e = false) :
    ((Udp.opened true ip port ok).run h).2 = [] := by
  have key : ∀ (h : List UdpEv) (u : Udp), u.peer.port = 0 → u.deadline = none →
      (∀ e ∈ h, isDatagram e = false) → (u.run h).2 = [] := by
    intro h
    induction h with
    | nil => intro _ _ _ _; rfl
    | cons e es ih =>
      intro u h1 h2 hn
      have hes : ∀ e ∈ es, isDatagram e = false := fun x hx => hn x (List.mem_cons_of_mem _ hx)
      cases e with
      | recv now r =>
        cases r with
        | error => simpa [Udp.run, Udp.step] using ih u h1 h2 hes
        | datagram a d => exact absurd (hn _ List.mem_cons_self) (by simp [isDatagram])
      | timer now => simpa [Udp.run, Udp.step, h2] using ih u h1 h2 hes
      | write now m => simpa [Udp.run, Udp.step, h1] using ih u h1 h2 hes
  exact key h _ (by simp [Udp.opened]) rfl hn

example : ((Udp.opened true 1 14550 true).run
    [.write 0 [1], .recv 5 (.datagram { ip := 7, port := 900 } [2]), .write 6 [3], .timer 9000, .write 9001 [4],
     .recv 9002 (.datagram { ip := 8, port := 901 } []), .recv 9002 .error, .write 9003 [5]]).2 =
    [{ ip := 7, port := 900 }, { ip := 7, port := 900 }, { ip := 8, port := 901 }] := by decide

/-! ### C27 -/

theorem no_datagram_config (es : List UdpEv) : ∀ (u : Udp), u.peer = u.config →
    (∀ e ∈ es, isDatagram e = false) → (u.run es).1.peer = u.config := by
  induction es with
  | nil => intro u h _; exact h
  | cons e es ih =>
    intro u h hn
    simp only [Udp.run]
    have hc := (step_const u e).1
    rw [← hc]
    refine ih _ ?_ (fun x hx => hn x (List.mem_cons_of_mem _ hx))
    rw [hc]
    cases e with
    | recv now r =>
      cases r with
      | error => exact h
      | datagram a d => exact absurd (hn _ List.mem_cons_self) (by simp [isDatagram])
    | timer now =>
      simp only [Udp.step]
      split
      · exact h
      · split
        · rfl
        · exact h
    | write _ _ => exact h

theorem after_datagram (es : List UdpEv) : ∀ (u : Udp) (t : Nat), u.deadline = some (t + 5000) →
    (∀ e ∈ es, isDatagram e = false) →
    (ServedAfter t es → (u.run es).1.peer = u.config) ∧ (¬ ServedAfter t es → (u.run es).1.peer = u.peer) := by
  induction es with
  | nil => intro u t _ _; exact ⟨fun ⟨_, h, _⟩ => (by cases h), fun _ => rfl⟩
  | cons e es ih =>
    intro u t hd hn
    have hes : ∀ e ∈ es, isDatagram e = false := fun x hx => hn x (List.mem_cons_of_mem _ hx)
    have same : (∀ now, e = .timer now → ¬ t + 5000 ≤ now) → (u.step e).1 = u →
        (ServedAfter t (e :: es) → (u.run (e :: es)).1.peer = u.config) ∧
        (¬ ServedAfter t (e :: es) → (u.run (e :: es)).1.peer = u.peer) := by
      intro ht hs
      have := ih u t hd hes
      simp only [Udp.run, hs]
      refine ⟨fun ⟨now, hm, hle⟩ => this.1 ⟨now, ?_, hle⟩, fun h => this.2 fun ⟨now, hm, hle⟩ =>
        h ⟨now, List.mem_cons_of_mem _ hm, hle⟩⟩
      rcases List.mem_cons.mp hm with e' | hm
      · exact absurd hle (ht now e'.symm)
      · exact hm
    cases e with
    | recv now r =>
      cases r with
      | error => exact same (by simp) rfl
      | datagram a d => exact absurd (hn _ List.mem_cons_self) (by simp [isDatagram])
    | write _ _ => exact same (by simp) rfl
    | timer now =>
      by_cases hle : t + 5000 ≤ now
      · have hserved : ServedAfter t (.timer now :: es) := ⟨now, List.mem_cons_self, hle⟩
        refine ⟨fun _ => ?_, fun h => absurd hserved h⟩
        simp only [Udp.run, Udp.step, hd, if_pos hle]
        exact no_datagram_config es _ rfl hes
      · refine same (fun n hn' => by cases hn'; exact hle) ?_
        simp [Udp.step, hd, hle]

theorem write_dest {u : Udp} {a : Addr} (h : u.peer = a) (ha : a.port ≠ 0) (now : Nat) (msg : List UInt8) :
    (u.step (.write now msg)).2 = some a := by
  subst h; simp [Udp.step, ha]

/-- **C27**, before any reception: a UDP endpoint in client mode sends to its configured address. -/
theorem C27_initial (ip port : Nat) (ok : Bool) (hp : UInt16.ofNat port ≠ 0) (h : List UdpEv)
    (hn : ∀ e ∈ h, isDatagram e = false) (now : Nat) (msg : List UInt8) :
    (((Udp.opened false ip port ok).run h).1.step (.write now msg)).2 =
      some { ip := ip, port := UInt16.ofNat port } := by
  have := no_datagram_config h (Udp.opened false ip port ok) rfl hn
  simp only [Udp.step, this]
  simp [Udp.opened, hp]

/-- **C27**, after a reception: let the most recent datagram be from `a` at time `t`. A message is sent to `a`,
unless the no-message timer was served 5 s after `t` or later (it is armed to expire exactly then): in this case it
is sent to the configured address. -/
theorem C27_fallback (ip port : Nat) (hp : UInt16.ofNat port ≠ 0) (pre post : List UdpEv) (t : Nat) (a : Addr)
    (data : List UInt8) (ha : a.port ≠ 0) (hn : ∀ e ∈ post, isDatagram e = false) (now : Nat) (msg : List UInt8) :
    (ServedAfter t post →
      (((Udp.opened false ip port true).run (pre ++ .recv t (.datagram a data) :: post)).1.step (.write now msg)).2 =
        some { ip := ip, port := UInt16.ofNat port }) ∧
    (¬ ServedAfter t post →
      (((Udp.opened false ip port true).run (pre ++ .recv t (.datagram a data) :: post)).1.step (.write now msg)).2 =
        some a) := by
  obtain ⟨hc, ht⟩ := run_const (Udp.opened false ip port true) pre
  have ht : ((Udp.opened false ip port true).run pre).1.hasTimer = true := ht
  have hc : ((Udp.opened false ip port true).run pre).1.config = { ip := ip, port := UInt16.ofNat port } := hc
  have key := after_datagram post (((Udp.opened false ip port true).run pre).1.step (.recv t (.datagram a data))).1 t
    (by simp [Udp.step, ht]) hn
  rw [run_append]
  simp only [Udp.run]
  refine ⟨fun h => ?_, fun h => ?_⟩
  · have := key.1 h
    rw [(step_const _ _).1, hc] at this
    exact write_dest this hp _ _
  · exact write_dest (key.2 h) ha _ _

/-- **C27**, another address only by reception in the last 5 s: if a message is sent at time `now` to something else
than the configured address, a datagram came from there, no datagram came later, and either that was less than 5 s
ago or the timer, due since then, has not been served yet. -/
theorem C27_only_recent (ip port : Nat) (h : List UdpEv) (now : Nat) (msg : List UInt8) (a : Addr)
    (hw : (((Udp.opened false ip port true).run h).1.step (.write now msg)).2 = some a)
    (hne : a ≠ { ip := ip, port := UInt16.ofNat port }) :
    ∃ pre t data post, h = pre ++ .recv t (.datagram a data) :: post ∧ (∀ e ∈ post, isDatagram e = false) ∧
      ∀ n, .timer n ∈ post → n < t + 5000 := by
  have hpeer : ((Udp.opened false ip port true).run h).1.peer = a := by
    simp only [Udp.step] at hw
    split at hw
    · cases hw
    · exact Option.some.inj hw
  have split : (∀ e ∈ h, isDatagram e = false) ∨ ∃ pre t b data post, h = pre ++ .recv t (.datagram b data) :: post ∧
      ∀ e ∈ post, isDatagram e = false := by
    clear hw hpeer
    induction h with
    | nil => left; intro e he; cases he
    | cons e es ih =>
      rcases ih with ih | ⟨pre, t, b, data, post, rfl, hp⟩
      · cases he : isDatagram e with
        | false =>
          left
          intro x hx
          rcases List.mem_cons.mp hx with rfl | hx
          · exact he
          · exact ih x hx
        | true =>
          right
          cases e with
          | recv t r =>
            cases r with
            | datagram b d => exact ⟨[], t, b, d, es, rfl, ih⟩
            | error => cases he
          | timer _ => cases he
          | write _ _ => cases he
      · exact .inr ⟨e :: pre, t, b, data, post, rfl, hp⟩
  rcases split with hn | ⟨pre, t, b, data, post, rfl, hn⟩
  · have := no_datagram_config h (Udp.opened false ip port true) rfl hn
    rw [hpeer] at this
    exact absurd this hne
  · obtain ⟨hc, ht⟩ := run_const (Udp.opened false ip port true) pre
    have ht : ((Udp.opened false ip port true).run pre).1.hasTimer = true := ht
    have hc : ((Udp.opened false ip port true).run pre).1.config = { ip := ip, port := UInt16.ofNat port } := hc
    have key := after_datagram post (((Udp.opened false ip port true).run pre).1.step (.recv t (.datagram b data))).1 t
      (by simp [Udp.step, ht]) hn
    rw [run_append] at hpeer
    simp only [Udp.run] at hpeer
    by_cases hs : ServedAfter t post
    · have := key.1 hs
      rw [hpeer, (step_const _ _).1, hc] at this
      exact absurd this hne
    · have := key.2 hs
      rw [hpeer] at this
      have hab : a = b := by simpa [Udp.step] using this
      subst hab
      refine ⟨pre, t, data, post, rfl, hn, fun n hm => ?_⟩
      exact Nat.lt_of_not_le fun hle => hs ⟨n, hm, hle⟩

/-- The client falls back after 5 s of silence, and follows the sender again afterwards. -/
example : ((Udp.opened false 1 14550 true).run
    [.write 0 [1], .recv 10 (.datagram { ip := 7, port := 900 } [2]), .write 20 [3], .timer 5009, .write 5009 [4],
     .timer 5010, .write 5011 [5], .recv 6000 (.datagram { ip := 8, port := 901 } []), .write 6001 [6]]).2 =
    [{ ip := 1, port := 14550 }, { ip := 7, port := 900 }, { ip := 7, port := 900 }, { ip := 1, port := 14550 },
     { ip := 8, port := 901 }] := by decide

/-- The hypothesis on the port is needed: a client configured with port 65536 (accepted by the configuration check,
see C63) truncates it to 0 and never sends before it has received something. -/
theorem C27_port_witness : ((Udp.opened false 1 65536 true).run [.write 0 [1], .write 1 [2]]).2 = [] := by decide

/-! ### C30 -/

/-- **C30**, the rate is kept: once a known valid message was received, whatever happened before, no later event
changes the rate. -/
theorem C30_kept (u : Uart) (pre post : List UartEv) :
    (u.run (pre ++ .read true :: post)).speed = (u.run pre).speed ∧
    (u.run (pre ++ .read true :: post)).idx = (u.run pre).idx := by
  have still : ∀ (es : List UartEv) (u : Uart), u.searching = false → u.run es = u := by
    intro es
    induction es with
    | nil => intro u _; rfl
    | cons e es ih =>
      intro u h
      have : u.step e = u := by cases e <;> simp [Uart.step, h]
      show (u.step e).run es = u
      rw [this]; exact ih u h
  have hr : u.run (pre ++ .read true :: post) = (((u.run pre).step (.read true))).run post := by
    simp [Uart.run]
  have h2 : ((u.run pre).step (.read true)).searching = false ∧
      ((u.run pre).step (.read true)).speed = (u.run pre).speed ∧
      ((u.run pre).step (.read true)).idx = (u.run pre).idx := by
    simp only [Uart.step, Bool.and_true]
    split
    · exact ⟨rfl, rfl, rfl⟩
    · rename_i h; exact ⟨by simpa using h, rfl, rfl⟩
  rw [hr, still post _ h2.1]
  exact h2.2

theorem lastTaken_add (l : List (Nat × Bool)) (r : Nat) (b : Bool) :
    lastTaken (l ++ [(r, b)]) = if b then some r else lastTaken l := by
  cases b <;> simp [lastTaken]

theorem cycle_succ (rates : List Nat) (n : Nat) (r : Nat) (hr : rates[n % rates.length]? = some r) :
    cycle rates (n + 1) = cycle rates n ++ [r] := by
  simp [cycle, List.range_succ, hr]

/-- Invariant of the search. -/
structure Searching (rates : List Nat) (t0 n k : Nat) (u : Uart) : Prop where
  same : u.rates = rates
  idx : u.idx = n % rates.length
  asked : u.asked.map (·.1) = cycle rates (n + 1)
  speed : u.speed = lastTaken u.asked
  on : u.searching = true
  due : u.due = t0 + 5000 * (k + 1)

theorem searching_setSpeed (u : Uart) (r : Nat) (sp : RateRes) (hs : u.speed = lastTaken u.asked) :
    (u.setSpeed r sp).speed = lastTaken (u.setSpeed r sp).asked ∧
    (u.setSpeed r sp).asked.map (·.1) = u.asked.map (·.1) ++ [r] ∧ (u.setSpeed r sp).rates = u.rates := by
  cases sp <;> simp [Uart.setSpeed, lastTaken_add, hs]

theorem searching_run {rates : List Nat} {t0 : Nat} (h0 : rates ≠ []) : ∀ (es : List UartEv) (n k : Nat) (u : Uart),
    Searching rates t0 n k u → noKnown es → ∃ k', Searching rates t0 (n + periodsServed t0 k es) k' (u.run es) := by
  intro es
  induction es with
  | nil => intro n k u H _; exact ⟨k, H⟩
  | cons e es ih =>
    intro n k u H hn
    have hes : noKnown es := fun h => hn (List.mem_cons_of_mem _ h)
    cases e with
    | read b =>
      cases b with
      | true => exact absurd List.mem_cons_self hn
      | false =>
        have : u.step (.read false) = u := by simp [Uart.step]
        show ∃ k', Searching rates t0 (n + periodsServed t0 k es) k' ((u.step (.read false)).run es)
        rw [this]
        exact ih n k u H hes
    | timer now sp =>
      obtain ⟨h1, h2, ha, h3, h4, h5⟩ := H
      show ∃ k', Searching rates t0 (n + periodsServed t0 k (.timer now sp :: es)) k' ((u.step (.timer now sp)).run es)
      have hdue : u.due ≤ now ↔ k < (now - t0) / 5000 := by
        rw [h5, Nat.lt_iff_add_one_le, Nat.le_div_iff_mul_le (by decide)]
        omega
      by_cases hk : k < (now - t0) / 5000
      · have hstep : Searching rates t0 (n + 1) ((now - t0) / 5000) (u.step (.timer now sp)) := by
          have hlen : 0 < rates.length := List.length_pos_iff.mpr h0
          have hi : (u.idx + 1) % u.rates.length = (n + 1) % rates.length := by
            rw [h1, h2, Nat.mod_add_mod]
          have hlt : (n + 1) % rates.length < rates.length := Nat.mod_lt _ hlen
          have hget : rates[(n + 1) % rates.length]? = some rates[(n + 1) % rates.length] :=
            List.getElem?_eq_getElem hlt
          obtain ⟨g1, g2, g3⟩ := searching_setSpeed u (rates[(n + 1) % rates.length]) sp h3
          simp only [Uart.step, h4, decide_eq_true (hdue.mpr hk), Bool.and_self, if_true, hi]
          rw [h1, hget]
          refine ⟨g3.trans h1, rfl, ?_, g1, ?_, ?_⟩
          · rw [cycle_succ rates (n + 1) _ hget, ← ha]; exact g2
          · cases sp <;> exact h4
          · simp only [h5]
            have : now - (t0 + 5000 * (k + 1)) = (now - t0) - 5000 * (k + 1) := by omega
            rw [this]
            rw [Nat.sub_mul_div (now - t0) 5000 (k + 1)]
            omega
        obtain ⟨k', h⟩ := ih _ _ _ hstep hes
        refine ⟨k', ?_⟩
        simp only [periodsServed, if_pos hk]
        rw [← Nat.add_assoc]
        exact h
      · have : u.step (.timer now sp) = u := by
          have : ¬ u.due ≤ now := fun h => hk (hdue.mp h)
          simp [Uart.step, this]
        rw [this]
        simp only [periodsServed, if_neg hk]
        exact ih n k u ⟨h1, h2, ha, h3, h4, h5⟩ hes

theorem setup_searching {rates : List Nat} {t0 : Nat} {sp : RateRes} {u : Uart} (hl : 2 ≤ rates.length)
    (hs : Uart.setup rates t0 sp true = some u) : Searching rates t0 0 0 u := by
  match rates, hl with
  | r :: r' :: rs, _ =>
    simp only [Uart.setup, Option.some.injEq] at hs
    subst hs
    cases sp <;> exact ⟨rfl, by simp [Uart.setSpeed], by simp [Uart.setSpeed, cycle],
      by simp [Uart.setSpeed, lastTaken], rfl, rfl⟩

/-- **C30**, the search: with several rates, as long as no known valid message arrives, the device is asked for the
rates in cyclic order, the first one at start and one more for each 5 s period in which the timer is served, whatever
it answers; the rate in use is the last one it took. -/
theorem C30_asked {rates : List Nat} {t0 : Nat} {sp : RateRes} {u : Uart} (hl : 2 ≤ rates.length)
    (hs : Uart.setup rates t0 sp true = some u) (es : List UartEv) (hn : noKnown es) :
    (u.run es).asked.map (·.1) = cycle rates (periodsServed t0 0 es + 1) ∧
    (u.run es).speed = lastTaken (u.run es).asked := by
  obtain ⟨_, h⟩ := searching_run (by intro e; rw [e] at hl; simp at hl) es 0 0 u (setup_searching hl hs) hn
  rw [Nat.zero_add] at h
  exact ⟨h.asked, h.speed⟩

theorem asked_taken : ∀ (es : List UartEv) (u : Uart), AllSet es → (∀ a ∈ u.asked, a.2 = true) →
    ∀ a ∈ (u.run es).asked, a.2 = true := by
  intro es
  induction es with
  | nil => intro u _ h; exact h
  | cons e es ih =>
    intro u hs h
    refine ih (u.step e) (fun now sp hm => hs now sp (List.mem_cons_of_mem _ hm)) ?_
    cases e with
    | read b => simp only [Uart.step]; split <;> exact h
    | timer now sp =>
      have hsp := hs now sp List.mem_cons_self
      simp only [Uart.step]
      split
      · split
        · intro a ha
          cases sp with
          | notSet => exact absurd rfl hsp
          | _ =>
            simp only [Uart.setSpeed, List.mem_append, List.mem_singleton] at ha
            rcases ha with ha | rfl
            · exact h a ha
            · rfl
        · exact h
      · exact h

theorem lastTaken_all (l : List (Nat × Bool)) (h : ∀ a ∈ l, a.2 = true) :
    lastTaken l = (l.map (·.1)).getLast? := by
  rw [lastTaken, List.filter_eq_self.mpr h, List.getLast?_map]

/-- **C30**, the search: with several rates, as long as no known valid message arrives, the rate in use is the one
reached by advancing cyclically, once for each 5 s period in which the timer is served, if the device takes them. -/
theorem C30_cycle {rates : List Nat} {t0 : Nat} {sp : RateRes} {u : Uart} (hl : 2 ≤ rates.length)
    (hs : Uart.setup rates t0 sp true = some u) (es : List UartEv) (hn : noKnown es) (h0 : sp ≠ .notSet)
    (hd : AllSet es) :
    (u.run es).speed = rates[periodsServed t0 0 es % rates.length]? := by
  obtain ⟨h1, h2⟩ := C30_asked hl hs es hn
  have hlt : periodsServed t0 0 es % rates.length < rates.length := Nat.mod_lt _ (by omega)
  have hu : ∀ a ∈ u.asked, a.2 = true := by
    match rates, hl with
    | r :: r' :: rs, _ =>
      simp only [Uart.setup, Option.some.injEq] at hs
      subst hs
      cases sp with
      | notSet => exact absurd rfl h0
      | _ => simp [Uart.setSpeed]
  rw [h2, lastTaken_all _ (asked_taken es u hd hu), h1,
    cycle_succ rates _ _ (List.getElem?_eq_getElem hlt), List.getLast?_concat, List.getElem?_eq_getElem hlt]

theorem periods_prefix (t0 : Nat) : ∀ (es : List UartEv) (k i : Nat), i ≤ periodsServed t0 k es →
    ∃ pre post, es = pre ++ post ∧ periodsServed t0 k pre = i := by
  intro es
  induction es with
  | nil => intro k i h; exact ⟨[], [], rfl, by simp [periodsServed] at h ⊢; exact h.symm⟩
  | cons e es ih =>
    intro k i h
    cases e with
    | read b =>
      obtain ⟨pre, post, e1, e2⟩ := ih k i (by simpa [periodsServed] using h)
      exact ⟨.read b :: pre, post, by rw [e1]; rfl, by simpa [periodsServed] using e2⟩
    | timer now sp =>
      by_cases hk : k < (now - t0) / 5000
      · simp only [periodsServed, if_pos hk] at h
        cases i with
        | zero => exact ⟨[], _, rfl, rfl⟩
        | succ i =>
          obtain ⟨pre, post, e1, e2⟩ := ih ((now - t0) / 5000) i (by omega)
          refine ⟨.timer now sp :: pre, post, by rw [e1]; rfl, ?_⟩
          simp only [periodsServed, if_pos hk, e2]; omega
      · simp only [periodsServed, if_neg hk] at h
        obtain ⟨pre, post, e1, e2⟩ := ih k i h
        exact ⟨.timer now sp :: pre, post, by rw [e1]; rfl, by simpa only [periodsServed, if_neg hk] using e2⟩

/-- **C30**, every configured rate is tried: when the search lasted for as many served periods as there are rates,
the device was asked for each of them, and each of them was in use at some point if the device takes what it is
asked for. -/
theorem C30_all_tried {rates : List Nat} {t0 : Nat} {sp : RateRes} {u : Uart} (hl : 2 ≤ rates.length)
    (hs : Uart.setup rates t0 sp true = some u) (es : List UartEv) (hn : noKnown es)
    (henough : rates.length ≤ periodsServed t0 0 es + 1) (r : Nat) (hr : r ∈ rates) :
    r ∈ (u.run es).asked.map (·.1) ∧
    (sp ≠ .notSet → AllSet es → ∃ pre post, es = pre ++ post ∧ (u.run pre).speed = some r) := by
  obtain ⟨i, hi, rfl⟩ := List.mem_iff_getElem.mp hr
  refine ⟨?_, fun h0 hd => ?_⟩
  · rw [(C30_asked hl hs es hn).1, cycle, List.mem_filterMap]
    exact ⟨i, List.mem_range.mpr (by omega), by rw [Nat.mod_eq_of_lt hi]; exact List.getElem?_eq_getElem hi⟩
  · obtain ⟨pre, post, e1, e2⟩ := periods_prefix t0 es 0 i (by omega)
    refine ⟨pre, post, e1, ?_⟩
    rw [C30_cycle hl hs pre (fun h => hn (by rw [e1]; exact List.mem_append_left _ h)) h0
      (fun now sp hm => hd now sp (by rw [e1]; exact List.mem_append_left _ hm)), e2, Nat.mod_eq_of_lt hi]
    exact List.getElem?_eq_getElem hi

/-- If the timer is served in every period, the number of served periods is the number of elapsed ones. -/
theorem C30_prompt (t0 n : Nat) (sp : Nat → RateRes) :
    periodsServed t0 0 ((List.range n).map (fun i => .timer (t0 + 5000 * (i + 1)) (sp i))) = n := by
  have key : ∀ (m j : Nat),
      periodsServed t0 j ((List.range' j m).map (fun i => .timer (t0 + 5000 * (i + 1)) (sp i))) = m := by
    intro m
    induction m with
    | zero => intro j; rfl
    | succ m ih =>
      intro j
      have hd : (t0 + 5000 * (j + 1) - t0) / 5000 = j + 1 := by
        rw [Nat.add_sub_cancel_left, Nat.mul_div_cancel_left _ (by decide)]
      simp only [List.range'_succ, List.map_cons, periodsServed, hd]
      rw [if_pos (Nat.lt_succ_self j), ih (j + 1)]
      omega
  rw [List.range_eq_range']
  exact key n 0

/-- Three rates; the second one works at 12 s. -/
example : ∃ u, Uart.setup [57600, 115200, 921600] 100 .set true = some u ∧
    (u.run [.read false, .timer 5000 .set]).speed = some 57600 ∧
    (u.run [.read false, .timer 5100 .set, .read false, .timer 10100 .unflushed, .timer 15100 .set,
      .timer 20100 .set]).speed = some 115200 ∧
    (u.run [.timer 5100 .set, .read true, .timer 10100 .set, .timer 15100 .set]).speed = some 115200 ∧
    periodsServed 100 0 [.timer 5100 .set, .timer 10100 .set, .timer 15100 .set, .timer 20100 .set] = 4 :=
  ⟨_, rfl, by decide, by decide, by decide, by decide⟩

/-- A device that does not know the second rate keeps the first one for two periods. -/
example : ∃ u, Uart.setup [57600, 115200, 921600] 100 .set true = some u ∧
    (u.run [.timer 5100 .notSet]).speed = some 57600 ∧
    (u.run [.timer 5100 .notSet, .timer 10100 .set]).speed = some 921600 ∧
    (u.run [.timer 5100 .notSet, .timer 10100 .set]).asked.map (·.1) = [57600, 115200, 921600] :=
  ⟨_, rfl, by decide, by decide, by decide⟩

/-- **C30**: without the timer (`timerfd_create` failed, src/mainloop.cpp:506-533) nothing is searched: the endpoint is
set up all the same and stays at the rate it has. -/
theorem C30_no_timer {rates : List Nat} {t0 : Nat} {sp : RateRes} {u : Uart}
    (hs : Uart.setup rates t0 sp false = some u) (es : List UartEv) : (u.run es).speed = u.speed := by
  have hu : u.searching = false := by
    match rates with
    | [] => simp [Uart.setup] at hs
    | [r] =>
      simp only [Uart.setup] at hs
      split at hs
      · cases hs; cases sp <;> rfl
      · exact absurd hs (by simp)
    | r :: r' :: rs => simp only [Uart.setup, Option.some.injEq] at hs; subst hs; rfl
  have key : ∀ (es : List UartEv) (u : Uart), u.searching = false → (u.run es).speed = u.speed := by
    intro es
    induction es with
    | nil => intro u _; rfl
    | cons e es ih =>
      intro u h
      have : u.step e = u := by cases e <;> simp [Uart.step, h]
      show ((u.step e).run es).speed = _
      rw [this]; exact ih u h
  exact key es u hu

example : ∃ u, Uart.setup [57600, 115200] 100 .set false = some u ∧
    (u.run [.timer 5100 .set, .timer 10100 .set]).speed = some 57600 := ⟨_, rfl, by decide⟩

/-! ### C31 -/

theorem tx_attempts (k : LinkKind) : ∀ (es : List TxEv) (s : TxSt),
    (txRun k s es).calls = s.calls ++ (attempts k s.tx.fdOpen s.tx.port es).map Prod.fst := by
  intro es
  induction es with
  | nil => intro s; simp [txRun, attempts]
  | cons e es ih =>
    intro s
    show (txRun k (txStep k s e) es).calls = _
    rw [ih]
    cases e with
    | canWrite => rfl
    | conn o => rfl
    | peer p => rfl
    | offer m r =>
      cases k <;> cases hf : s.tx.fdOpen <;> cases r <;>
        by_cases hp : s.tx.port = 0 <;> simp [txStep, writeLink, attempts, hf, hp, Tx.count]

theorem attempts_sublist (k : LinkKind) : ∀ (es : List TxEv) (up : Bool) (port : UInt16),
    List.Sublist ((attempts k up port es).map Prod.fst) (offered es) := by
  intro es
  induction es with
  | nil => intro _ _; exact .slnil
  | cons e es ih =>
    intro up port
    cases e with
    | canWrite => exact ih _ _
    | conn o => exact ih _ _
    | peer p => exact ih _ _
    | offer m r =>
      simp only [attempts, offered]
      split
      · exact .cons_cons _ (ih _ _)
      · exact .cons _ (ih _ _)

/-- **C31**, at most once and whole: over any history of messages offered (whatever the kernel answers), descriptors
reported writable, connections opened and closed and peers changing, the system calls issued are exactly one per
message offered while the link is up, each with the whole message, in order; in particular they are a subsequence of
the offered messages: nothing is re-sent after a short or blocked write. -/
theorem C31_at_most_once (k : LinkKind) (tx : Tx) (es : List TxEv) :
    (txRun k { tx := tx } es).calls = (attempts k tx.fdOpen tx.port es).map Prod.fst ∧
    List.Sublist (txRun k { tx := tx } es).calls (offered es) := by
  have h := tx_attempts k es { tx := tx }
  simp only [List.nil_append] at h
  exact ⟨h, h ▸ attempts_sublist k es _ _⟩

/-- **C31**, being told that the descriptor is writable sends nothing. -/
theorem C31_canwrite (k : LinkKind) (s : TxSt) :
    (txStep k s .canWrite).calls = s.calls ∧ (txStep k s .canWrite).tx = s.tx := ⟨rfl, rfl⟩

/-- The attempt one offered message makes. -/
def attempt (k : LinkKind) (up : Bool) (port : UInt16) (m : List UInt8) (r : SysRes) : List (List UInt8 × SysRes) :=
  if up ∧ (k = .udp → port ≠ 0) then [(m, r)] else []

theorem attempts_offer (k : LinkKind) (up : Bool) (port : UInt16) (m : List UInt8) (r : SysRes) (es : List TxEv) :
    attempts k up port (.offer m r :: es) = attempt k up port m r ++ attempts k up port es := by
  simp only [attempts, attempt]
  split <;> rfl

theorem step_offer (k : LinkKind) (s : TxSt) (m : List UInt8) (r : SysRes) :
    (txStep k s (.offer m r)).tx.fdOpen = s.tx.fdOpen ∧ (txStep k s (.offer m r)).tx.port = s.tx.port ∧
    (txStep k s (.offer m r)).tx.total =
      s.tx.total + UInt32.ofNat ((attempt k s.tx.fdOpen s.tx.port m r).filter (sent k)).length ∧
    (txStep k s (.offer m r)).tx.bytes = s.tx.bytes +
      UInt64.ofNat (((attempt k s.tx.fdOpen s.tx.port m r).filter (sent k)).map (fun a => a.1.length)).sum ∧
    (txStep k s (.offer m r)).tx.incomplete = s.tx.incomplete +
      UInt32.ofNat ((attempt k s.tx.fdOpen s.tx.port m r).filter (fun a => sent k a && !whole a)).length := by
  cases hf : s.tx.fdOpen
  · cases k <;> simp [txStep, writeLink, attempt, hf]
  · by_cases hp : s.tx.port = 0 <;> cases k <;> cases r with
    | took n =>
      by_cases hn : n = m.length <;>
        simp [txStep, writeLink, attempt, hf, hp, Tx.count, List.filter, sent, whole, hn]
    | _ => simp [txStep, writeLink, attempt, hf, hp, Tx.count, List.filter, sent, whole]

theorem tx_counts (k : LinkKind) : ∀ (es : List TxEv) (s : TxSt),
    (txRun k s es).tx.total =
      s.tx.total + UInt32.ofNat ((attempts k s.tx.fdOpen s.tx.port es).filter (sent k)).length ∧
    (txRun k s es).tx.bytes = s.tx.bytes +
      UInt64.ofNat (((attempts k s.tx.fdOpen s.tx.port es).filter (sent k)).map (fun a => a.1.length)).sum ∧
    (txRun k s es).tx.incomplete = s.tx.incomplete +
      UInt32.ofNat ((attempts k s.tx.fdOpen s.tx.port es).filter (fun a => sent k a && !whole a)).length := by
  intro es
  induction es with
  | nil => intro s; simp [txRun, attempts]
  | cons e es ih =>
    intro s
    show (txRun k (txStep k s e) es).tx.total = _ ∧ (txRun k (txStep k s e) es).tx.bytes = _ ∧
      (txRun k (txStep k s e) es).tx.incomplete = _
    obtain ⟨i1, i2, i3⟩ := ih (txStep k s e)
    rw [i1, i2, i3]
    cases e with
    | canWrite => exact ⟨rfl, rfl, rfl⟩
    | conn o => exact ⟨rfl, rfl, rfl⟩
    | peer p => exact ⟨rfl, rfl, rfl⟩
    | offer m r =>
      obtain ⟨h1, h2, h3, h4, h5⟩ := step_offer k s m r
      rw [h1, h2, h3, h4, h5, attempts_offer]
      simp only [List.filter_append, List.length_append, List.map_append, List.sum_append, UInt32.ofNat_add,
        UInt64.ofNat_add, UInt32.add_assoc, UInt64.add_assoc, and_self]

/-- **C31**, accounting: the transmit counters (modulo their width) are the number and size of the messages the kernel
took completely or in part; the incomplete counter is the number of those taken in part. The UART code also counts
messages whose write failed with an error other than "would block", as sent and incomplete. -/
theorem C31_counters (k : LinkKind) (fdOpen : Bool) (port : UInt16) (es : List TxEv) :
    let a := attempts k fdOpen port es
    let s := (txRun k { tx := { fdOpen := fdOpen, port := port } } es).tx
    s.total = UInt32.ofNat (a.filter (sent k)).length ∧
    s.bytes = UInt64.ofNat ((a.filter (sent k)).map (fun x => x.1.length)).sum ∧
    s.incomplete = UInt32.ofNat (a.filter (fun x => sent k x && !whole x)).length := by
  have h := tx_counts k es { tx := { fdOpen := fdOpen, port := port } }
  simpa using h

example : let s : TxSt := txRun .tcp { tx := { fdOpen := true } } [
       .offer [1, 2, 3] (.took 3), .offer [4, 5] (.took 1), .offer [6] .eagain, .canWrite, .offer [7] .epipe, .conn false,
       .offer [8] (.took 1), .conn true, .offer [9, 9] (.took 2)]
    s.calls = [[1, 2, 3], [4, 5], [6], [7], [9, 9]] ∧ s.tx.total = 3 ∧ s.tx.bytes = 7 ∧ s.tx.incomplete = 1 := by decide

/-! ### C84 -/

/-- Whether the link is up and which UDP port it writes to, after a history. -/
def upAfter (up : Bool) (port : UInt16) : List TxEv → Bool × UInt16
  | [] => (up, port)
  | .conn o :: es => upAfter o port es
  | .peer p :: es => upAfter up p es
  | .offer _ _ :: es => upAfter up port es
  | .canWrite :: es => upAfter up port es

/-- Neither reported writable nor reopened. -/
def stillBlocked (es : List TxEv) : Prop := ∀ e ∈ es, e ≠ .canWrite ∧ ∀ o, e ≠ .conn o

theorem blocked_iff (k : LinkKind) (tx : Tx) (m : List UInt8) (r : SysRes) (hr : r ≠ .other 11) :
    (writeLink k tx m r).2.2 = -11 ↔ r = .eagain ∧ tx.fdOpen = true ∧ (k = .udp → tx.port ≠ 0) := by
  cases k <;> cases hf : tx.fdOpen <;> cases r <;> by_cases hp : tx.port = 0 <;>
    simp [writeLink, hf, hp, SysRes.neg] at hr ⊢ <;> omega

theorem writeLink_same (k : LinkKind) (tx : Tx) (m : List UInt8) (r : SysRes) :
    (writeLink k tx m r).1.fdOpen = tx.fdOpen ∧ (writeLink k tx m r).1.port = tx.port := by
  cases k <;> cases hf : tx.fdOpen <;> cases r <;> by_cases hp : tx.port = 0 <;>
    simp [writeLink, hf, hp, Tx.count]

/-- **C84**: after any history, the descriptor is watched for writability iff a write on it would have blocked and since
then it was neither reported writable nor replaced. (`.other 11` would be another name for `.eagain`.) -/
theorem C84_watched_iff (k : LinkKind) (up : Bool) (port : UInt16) (es : List TxEv)
    (hr : ∀ m, .offer m (.other 11) ∉ es) :
    (txRun k { tx := { fdOpen := up, port := port } } es).pollOut = true ↔
      ∃ pre m post, es = pre ++ .offer m .eagain :: post ∧ stillBlocked post ∧
        (upAfter up port pre).1 = true ∧ (k = .udp → (upAfter up port pre).2 ≠ 0) := by
  have key : ∀ (es : List TxEv) (s : TxSt), (∀ m, .offer m (.other 11) ∉ es) →
      ((txRun k s es).pollOut = true ↔ (s.pollOut = true ∧ stillBlocked es) ∨
        ∃ pre m post, es = pre ++ .offer m .eagain :: post ∧ stillBlocked post ∧
          (upAfter s.tx.fdOpen s.tx.port pre).1 = true ∧ (k = .udp → (upAfter s.tx.fdOpen s.tx.port pre).2 ≠ 0)) := by
    intro es
    induction es with
    | nil =>
      intro s _
      constructor
      · intro h; exact .inl ⟨h, by simp [stillBlocked]⟩
      · rintro (⟨h, _⟩ | ⟨pre, m, post, h, _⟩)
        · exact h
        · cases pre <;> cases h
    | cons e es ih =>
      intro s hr
      show (txRun k (txStep k s e) es).pollOut = true ↔ _
      rw [ih (txStep k s e) (fun m hm => hr m (List.mem_cons_of_mem _ hm))]
      have hcons : ∀ P : List TxEv → List UInt8 → List TxEv → Prop,
          (∃ pre m post, e :: es = pre ++ .offer m .eagain :: post ∧ P pre m post) ↔
          (∃ m, e = .offer m .eagain ∧ P [] m es) ∨
          (∃ pre m post, es = pre ++ .offer m .eagain :: post ∧ P (e :: pre) m post) := by
        intro P
        constructor
        · rintro ⟨pre, m, post, h, hP⟩
          cases pre with
          | nil => cases h; exact .inl ⟨m, rfl, hP⟩
          | cons x pre => cases h; exact .inr ⟨pre, m, post, rfl, hP⟩
        · rintro (⟨m, rfl, hP⟩ | ⟨pre, m, post, rfl, hP⟩)
          · exact ⟨[], m, es, rfl, hP⟩
          · exact ⟨e :: pre, m, post, rfl, hP⟩
      rw [hcons]
      have hsb : stillBlocked (e :: es) ↔ (e ≠ .canWrite ∧ ∀ o, e ≠ .conn o) ∧ stillBlocked es := by
        unfold stillBlocked
        constructor
        · intro h; exact ⟨h e (List.mem_cons_self ..), fun x hx => h x (List.mem_cons_of_mem _ hx)⟩
        · rintro ⟨h1, h2⟩ x hx
          rcases List.mem_cons.mp hx with rfl | hx
          · exact h1
          · exact h2 x hx
      rw [hsb]
      cases e with
      | canWrite => simp [txStep, upAfter]
      | conn o => simp [txStep, upAfter]
      | peer p => simp [txStep, upAfter]
      | offer m r =>
        have hb := blocked_iff k s.tx m r (fun h => hr m (by rw [h]; exact List.mem_cons_self ..))
        obtain ⟨w1, w2⟩ := writeLink_same k s.tx m r
        have e1 : (txStep k s (.offer m r)).tx = (writeLink k s.tx m r).1 := rfl
        have e2 : (txStep k s (.offer m r)).pollOut = true ↔ s.pollOut = true ∨ (writeLink k s.tx m r).2.2 = -11 := by
          simp [txStep]
        rw [e1, w1, w2, e2, hb]
        simp only [ne_eq, reduceCtorEq, not_false_eq_true, implies_true, and_self, true_and, upAfter, TxEv.offer.injEq]
        constructor
        · rintro (⟨h | ⟨rfl, h1, h2⟩, h3⟩ | h)
          · exact .inl ⟨h, h3⟩
          · exact .inr (.inl ⟨m, ⟨rfl, rfl⟩, h3, h1, h2⟩)
          · exact .inr (.inr h)
        · rintro (⟨h, h3⟩ | ⟨m', ⟨rfl, rfl⟩, h3, h1, h2⟩ | h)
          · exact .inl ⟨.inl h, h3⟩
          · exact .inl ⟨.inr ⟨rfl, h1, h2⟩, h3⟩
          · exact .inr h
  have := key es { tx := { fdOpen := up, port := port } } hr
  simpa using this

example : (txRun .tcp { tx := { fdOpen := true } } [.offer [1] .eagain, .offer [2] (.took 1)]).pollOut = true ∧
    (txRun .tcp { tx := { fdOpen := true } } [.offer [1] .eagain, .offer [2] (.took 1), .canWrite]).pollOut = false := by
  decide

/-- **C30** (one rate): it is set at start, or the endpoint is rejected, and kept whatever happens. -/
theorem C30_single (r t0 : Nat) (sp : RateRes) (timerOk : Bool) :
    Uart.setup [r] t0 sp timerOk ≠ none ↔ sp = .set ∧ ∃ u, Uart.setup [r] t0 sp timerOk = some u ∧
      ∀ es : List UartEv, (u.run es).speed = some r := by
  constructor
  · intro h
    have hsp : sp = .set := by
      by_cases hs : sp = .set
      · exact hs
      · exact absurd (by simp [Uart.setup, hs]) h
    subst hsp
    refine ⟨rfl, _, rfl, ?_⟩
    have key : ∀ (es : List UartEv) (u : Uart), u.searching = false → u.speed = some r →
        (u.run es).speed = some r := by
      intro es
      induction es with
      | nil => intro u _ h; exact h
      | cons e es ih =>
        intro u h h2
        have : u.step e = u := by cases e <;> simp [Uart.step, h]
        show ((u.step e).run es).speed = _
        rw [this]; exact ih u h h2
    exact fun es => key es _ rfl rfl
  · rintro ⟨_, u, h, _⟩; rw [h]; simp

example : ((Uart.setup [57600] 0 .set true).map (fun u => (u.run [.timer 6000 .set, .read false]).speed)) =
    some (some 57600) ∧ Uart.setup [57600] 0 .unflushed true = none := by
  decide

end Verif
