import Verif.Spec.AttrLayout
import Verif.Spec.Utf8
import Verif.Model.LsAccess
/-
What the methods that read link-state and tunnel attributes return.
-/
namespace Verif.Spec

/-- the value of the last entry with type `k`. -/
def lastOf (k : UInt16) (ts : List Tlv16) : Option Bytes := ((ts.filter (·.type = k)).getLast?).map Tlv16.value

/-- octets as a number, most significant first. -/
def numOf (b : Bytes) : Nat := b.foldl (fun n x => n * 256 + x.toNat) 0

/-- the number in the first `n` octets, if there are as many. -/
def leading (n : Nat) (v : Bytes) : Option Nat := if n ≤ v.length then some (numOf (v.take n)) else none

/-- the number in the low 24 of the first 32 bits. -/
def low24 (v : Bytes) : Option Nat := (leading 4 v).map (· % 2 ^ 24)

/-- the text of an entry. -/
def TextOf (v : Option Bytes) (r : Option Bytes) : Prop := ∀ s, r = some s ↔ v = some s ∧ IsUtf8 s

/-- `a` reads as an attribute whose entries for nodes, links and prefixes are given by the three functions. Numbers of
the types: RFC 9552 and RFC 8571. -/
structure LsReads (node link pfx : UInt16 → Option Bytes) (a : LsAttr) : Prop where
  nodeName : TextOf (node 1026) a.nodeName
  linkName : TextOf (link 1098) a.linkName
  nodeFlags : ∀ f, a.nodeFlags = some f ↔ ∃ r, node 1024 = some (f :: r)
  adminGroup : a.adminGroup.map UInt32.toNat = (link 1088).bind (leading 4)
  maxBandwidth : a.maxBandwidth.map UInt32.toNat = (link 1089).bind (leading 4)
  igpMetric : a.igpMetric.map UInt32.toNat =
    (link 1095).bind fun v => if 1 ≤ v.length ∧ v.length ≤ 3 then some (numOf v) else none
  prefixMetric : a.prefixMetric.map UInt32.toNat = (pfx 1155).bind (leading 4)
  linkDelay : a.linkDelay.map UInt32.toNat = (link 1114).bind low24
  minMaxDelay : a.minMaxDelay.map (fun p => (p.1.toNat, p.2.toNat)) = (link 1115).bind fun v =>
    if 8 ≤ v.length then some (numOf (v.take 4) % 2 ^ 24, numOf ((v.drop 4).take 4) % 2 ^ 24) else none
  delayVariation : a.delayVariation.map UInt32.toNat = (link 1116).bind low24
  linkLoss : a.linkLoss.map UInt32.toNat = (link 1117).bind low24
  residual : a.residualBandwidth.map UInt32.toNat = (link 1118).bind (leading 4)
  available : a.availableBandwidth.map UInt32.toNat = (link 1119).bind (leading 4)
  utilized : a.utilizedBandwidth.map UInt32.toNat = (link 1120).bind (leading 4)

/-- the calls that concern nodes, links and prefixes, as entries. -/
def nodeCalls (cs : List LsCall) : List Tlv16 := cs.filterMap fun | .node k v => some ⟨k, v⟩ | _ => none
def linkCalls (cs : List LsCall) : List Tlv16 := cs.filterMap fun | .link k v => some ⟨k, v⟩ | _ => none
def prefixCalls (cs : List LsCall) : List Tlv16 := cs.filterMap fun | .prefix_ k v => some ⟨k, v⟩ | _ => none
def unknownCalls (cs : List LsCall) : List Tlv16 := cs.filterMap fun | .unknown t => some t | _ => none

/-- `s` is a sequence of entries; up to three octets behind them are not read. -/
def Entries (R : α → Bytes → Prop) (ts : List α) (s : Bytes) : Prop := ∃ b rest, s = b ++ rest ∧ Blocks R ts b ∧ rest.length < 4

/-- RFC 9552, section 5.3.2.4: an IGP metric in one octet, of which the two most significant bits are ignored, in two
octets, or in three. -/
def MetricValue (m : Nat) (v : Bytes) : Prop :=
  (∃ x : UInt8, v = [x] ∧ m = x.toNat % 64) ∨ (m < 65536 ∧ v = n16 m) ∨
  (m < 16777216 ∧ v = [UInt8.ofNat (m / 65536), UInt8.ofNat (m / 256), UInt8.ofNat m])

/-! ### tunnels -/

/-- the value of the first entry with type `k`. -/
def firstOf (k : UInt8) (ts : List Tlv8) : Option Bytes := ((ts.filter (·.type = k)).head?).map Tlv8.value

/-- what the four methods return for a tunnel with these sub-TLVs. -/
structure TunnelReads (subs : List Tlv8) (t : TunnelTlv) : Prop where
  endpoint : ∀ ip, t.endpoint = some ip ↔ firstOf 6 subs = some ip.octets
  color : t.color.map UInt32.toNat = (firstOf 4 subs).bind (leading 4)
  port : t.udpPort.map UInt16.toNat = (firstOf 8 subs).bind (leading 2)
  preference : t.preference.map UInt32.toNat = (firstOf 12 subs).bind (leading 4)

/-- RFC 9012, section 3.1: four reserved octets, the address family, the address. -/
def EndpointValue (ip : Ip) (v : Bytes) : Prop := ∃ rsv : Bytes, rsv.length = 4 ∧ v = rsv ++ n16 (afiNum ip.afi) ++ ip.octets

/-- RFC 9012, section 3.4.2 with section 4.3: a Color extended community. -/
def ColorValue (c : UInt32) (v : Bytes) : Prop := ∃ f1 f2 : UInt8, v = [0x03, 0x0b, f1, f2] ++ n32 c.toNat

/-- RFC 9830, section 2.4.1: flags, a reserved octet, the preference. -/
def PreferenceValue (p : UInt32) (v : Bytes) : Prop := ∃ f r : UInt8, v = [f, r] ++ n32 p.toNat

/-- RFC 9012, section 3.3.1. -/
def PortValue (p : UInt16) (v : Bytes) : Prop := v = n16 p.toNat

/-- tunnel types and sub-TLV types that are not known are read as 0. -/
def knownTunnel (k : UInt16) : UInt16 := if k.toNat < 23 then k else 0
def knownSub (k : UInt8) : UInt8 := if k.toNat < 21 ∨ k.toNat = 128 ∨ k.toNat = 129 then k else 0
def knownTypes (t : TunnelTlv) : TunnelTlv := ⟨knownTunnel t.type, t.subs.map fun s => ⟨knownSub s.type, s.value⟩⟩

end Verif.Spec
