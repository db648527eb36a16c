import Verif.Spec.ConfNum
import Verif.Model.Config

/-
What the endpoint sections of a configuration ask for.
-/

namespace Verif.Spec.Conf

/-- Lists of equal length, related item by item. -/
inductive EachTo {α β : Type} (R : α → β → Prop) : List α → List β → Prop
  | nil : EachTo R [] []
  | cons {a b as bs} : R a b → EachTo R as bs → EachTo R (a :: as) (b :: bs)

/-- The name of a section is a type followed by an endpoint name; the type is compared ignoring
case. -/
def Typed (type : List UInt8) (sec name : List UInt8) : Prop := ∃ x, sec = x ++ name ∧ Same x type

/-- `names` are the endpoints of a type: every declared section of the type has an endpoint of its
name, every endpoint comes from such a section, no two have the same name. -/
structure OneEach (type : List UInt8) (ds : List Decl) (names : List (List UInt8)) : Prop where
  all : ∀ sec name, Declared ds sec → Typed type sec name → ∃ n ∈ names, Same n name
  only : ∀ n ∈ names, ∃ sec, Declared ds sec ∧ Typed type sec n
  distinct : names.Pairwise fun a b => ¬ Same a b

/-- A decimal number, without leading zeros. -/
def Decimal (t : List UInt8) (n : Nat) : Prop := Numeral 10 t n ∧ (t = [48] ∨ ∀ r, t ≠ 48 :: r)

/-- A number an option gives: the default if it is not set, the number if it is set to one that
fits 64 bits. -/
def NumberIs (v : Option (List UInt8)) (dflt x : Nat) : Prop :=
  (v = none → x = dflt) ∧ ∀ t n, v = some t → Decimal t n → n < 2 ^ 64 → x = n

/-- The same for an `int`. -/
def IntIs (v : Option (List UInt8)) (dflt x : Int) : Prop :=
  (v = none → x = dflt) ∧ ∀ t n, v = some t → Decimal t n → n < 2 ^ 31 → x = (n : Int)

/-- A switch. -/
def SwitchIs (v : Option (List UInt8)) (dflt x : Bool) : Prop :=
  (v = none → x = dflt) ∧
  (∀ t, v = some t → Same (ascii "true") t → x = true) ∧
  (∀ t, v = some t → Same (ascii "false") t → x = false)

/-- A list of 32-bit numbers: empty if it is not set. -/
def IdsAre (v : Option (List UInt8)) (l : List Nat) : Prop :=
  (v = none → l = []) ∧
  ∀ items ns, v = some (commaSep items) → Items items ns → (∀ n ∈ ns, n < 2 ^ 32) → l = ns

/-- A list of 8-bit numbers: empty if it is not set. -/
def BytesAre (v : Option (List UInt8)) (l : List UInt8) : Prop :=
  (v = none → l = []) ∧
  ∀ items ns, v = some (commaSep items) → Items items ns → (∀ n ∈ ns, n < 256) → l.map UInt8.toNat = ns

/-- The filters a section asks for; `val` gives the value of a key. -/
structure FiltersAre (val : String → Option (List UInt8)) (f : Filters) : Prop where
  blockOutMsg : IdsAre (val "BlockMsgIdOut") f.blockOutMsg
  allowOutComp : BytesAre (val "AllowSrcCompOut") f.allowOutComp
  blockOutComp : BytesAre (val "BlockSrcCompOut") f.blockOutComp
  allowOutSys : BytesAre (val "AllowSrcSysOut") f.allowOutSys
  blockOutSys : BytesAre (val "BlockSrcSysOut") f.blockOutSys
  allowInMsg : IdsAre (val "AllowMsgIdIn") f.allowInMsg
  blockInMsg : IdsAre (val "BlockMsgIdIn") f.blockInMsg
  allowInComp : BytesAre (val "AllowSrcCompIn") f.allowInComp
  blockInComp : BytesAre (val "BlockSrcCompIn") f.blockInComp
  allowInSys : BytesAre (val "AllowSrcSysIn") f.allowInSys
  blockInSys : BytesAre (val "BlockSrcSysIn") f.blockInSys

/-- A UART endpoint is what its section asks for.  Without (usable) baud rates, 115200. -/
structure UartAsked (val : String → Option (List UInt8)) (o : UartConf) : Prop where
  device : val "Device" = some o.device
  baud : (val "Baud" = none → o.baud = [115200]) ∧
    ∀ items ns, val "Baud" = some (commaSep items) → Items items ns → ns ≠ [] → (∀ n ∈ ns, n < 2 ^ 32) → o.baud = ns
  flow : SwitchIs (val "FlowControl") false o.flow
  allowOutMsg : IdsAre (val "AllowMsgIdOut") o.filters.allowOutMsg
  filters : FiltersAre val o.filters
  group : o.group = (val "Group").getD []

/-- A UDP endpoint is what its section asks for, except for the port if it is not given.  The old
option `Filter` and `AllowMsgIdOut` add up. -/
structure UdpAsked (val : String → Option (List UInt8)) (o : UdpConf) : Prop where
  address : val "Address" = some o.address
  mode : ∃ t, val "Mode" = some t ∧
    ((Same t (ascii "normal") ∧ o.mode = .client) ∨
     ((Same t (ascii "server") ∨ Same t (ascii "eavesdropping")) ∧ o.mode = .server))
  port : ∀ t n, val "Port" = some t → Decimal t n → n < 2 ^ 64 - 1 → o.port = n
  allowOutMsg : ∃ l l', IdsAre (val "Filter") l ∧ IdsAre (val "AllowMsgIdOut") l' ∧ o.filters.allowOutMsg = l ++ l'
  filters : FiltersAre val o.filters
  group : o.group = (val "Group").getD []

/-- A TCP endpoint is what its section asks for. -/
structure TcpAsked (val : String → Option (List UInt8)) (o : TcpConf) : Prop where
  address : val "Address" = some o.address
  port : (∃ t, val "Port" = some t) ∧ NumberIs (val "Port") 0 o.port
  retry : IntIs (val "RetryTimeout") 5 o.retry
  allowOutMsg : IdsAre (val "AllowMsgIdOut") o.filters.allowOutMsg
  filters : FiltersAre val o.filters
  group : o.group = (val "Group").getD []

end Verif.Spec.Conf
