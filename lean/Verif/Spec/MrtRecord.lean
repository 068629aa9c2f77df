import Verif.Spec.Mrt
import Verif.Spec.MrtFrame
/-
Whole MRT records.
-/
namespace Verif.Spec

/-- A message that can be sent under this type and subtype. -/
inductive MrtMsgOk : EntryType → Nat → MrtMessage → Prop where
  | dump {v4 : Bool} {m : TableDump} : DumpOk v4 m → MrtMsgOk .tableDump (if v4 then 1 else 2) (.tableDump m)
  | batch {v4 : Bool} {ms : List TableDump} : 2 ≤ ms.length → (∀ m ∈ ms, DumpOk v4 m) →
      MrtMsgOk .tableDump (if v4 then 1 else 2) (.tableDumpBatch ms)
  | peers {t : PeerIndexTable} : PeerTableOk t → MrtMsgOk .tableDumpV2 1 (.tableDumpV2 (.peerIndexTable t))
  | rib {r : RibAfi} {n : Nat} {afi : Afi} {safi : Safi} {ap : Bool} : ribFamily r.ribType = some (n, afi, safi, ap) → RibOk r →
      MrtMsgOk .tableDumpV2 n (.tableDumpV2 (.ribAfi r))
  | geo {t : GeoPeerTable} : (∀ g ∈ t.peers, PeerOk g.peer) → Ascii t.viewName → MrtMsgOk .tableDumpV2 7 (.tableDumpV2 (.geo t))
  | message {ty : EntryType} {m : MpMessage} {n : Nat} {l : AsnLen} {ap : Bool} : ty = .bgp4mp ∨ ty = .bgp4mpEt →
      mpMessageType m.msgType = some (n, l, ap) → MpMessageOk l ap m → MrtMsgOk ty n (.bgp4mp (.message m))
  | state {ty : EntryType} {m : MpStateChange} {n : Nat} {l : AsnLen} : ty = .bgp4mp ∨ ty = .bgp4mpEt →
      mpStateType m.msgType = some (n, l) → MpStateOk l m → MrtMsgOk ty n (.bgp4mp (.stateChange m))
  | legacyMessage {m : LegacyMessage} {n : Nat} : n < 65536 → LegacyPayloadOk m.message →
      MrtMsgOk .bgp n (.legacyBgp (.message m))
  | legacyState {m : LegacyStateChange} {n : Nat} : n < 65536 → MrtMsgOk .bgp n (.legacyBgp (.stateChange m))

/-- the same message, up to what is not sent (see the relations for the parts). -/
inductive SameMrt : MrtMessage → MrtMessage → Prop where
  | dump {m m' : TableDump} : SameDump m m' → SameMrt (.tableDump m) (.tableDump m')
  | batch {ms ms' : List TableDump} : Pairwise2 SameDump ms ms' → SameMrt (.tableDumpBatch ms) (.tableDumpBatch ms')
  | peers {t t' : PeerIndexTable} : t'.collector = t.collector → t'.viewName = t.viewName →
      (∀ id, t'.peer id = t.peer id) → SameMrt (.tableDumpV2 (.peerIndexTable t)) (.tableDumpV2 (.peerIndexTable t'))
  | rib {r r' : RibAfi} : SameRib r r' → SameMrt (.tableDumpV2 (.ribAfi r)) (.tableDumpV2 (.ribAfi r'))
  | geo {t : GeoPeerTable} : SameMrt (.tableDumpV2 (.geo t)) (.tableDumpV2 (.geo t))
  | message {m m' : MpMessage} : SameMp m m' → SameMrt (.bgp4mp (.message m)) (.bgp4mp (.message m'))
  | state {m : MpStateChange} : SameMrt (.bgp4mp (.stateChange m)) (.bgp4mp (.stateChange m))
  | legacyMessage {m m' : LegacyMessage} : m'.peerAsn = m.peerAsn → m'.peerIp = m.peerIp → m'.localAsn = m.localAsn →
      m'.localIp = m.localIp → SameMessage m.message m'.message →
      SameMrt (.legacyBgp (.message m)) (.legacyBgp (.message m'))
  | legacyState {m : LegacyStateChange} : SameMrt (.legacyBgp (.stateChange m)) (.legacyBgp (.stateChange m))

/-- A record that can be sent: microseconds exactly for BGP4MP_ET, and a message that fits type and subtype. The length
field of the header is not looked at. -/
structure RecordOk (r : MrtRecord) : Prop where
  micro : r.header.micro.isSome ↔ r.header.type = .bgp4mpEt
  message : MrtMsgOk r.header.type r.header.subtype.toNat r.message

/-- the same record: the header with the length filled in, and the same message. -/
def SameRecord (bodyLen : Nat) (r r' : MrtRecord) : Prop :=
  r'.header.time = r.header.time ∧ r'.header.micro = r.header.micro ∧ r'.header.type = r.header.type ∧
    r'.header.subtype = r.header.subtype ∧ r'.header.length.toNat = bodyLen ∧ SameMrt r.message r'.message

/-- the number of octets of a header. -/
def headerLen (h : Header) : Nat := if h.type = .bgp4mpEt then 16 else 12

end Verif.Spec
