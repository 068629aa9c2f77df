import Verif.Spec.Route
/-
Which records the route iterator that reports errors has something to say about.
-/
namespace Verif.Spec

/-- A BGP message of a type other than UPDATE as far as its header goes: marker, length, type, and anything behind it. OPEN
(1) and KEEPALIVE (4) may not declare more than 4096 octets. -/
def OtherMessage (s : Bytes) : Prop :=
  ∃ (marker : Bytes) (len : Nat) (ty : UInt8) (rest : Bytes), marker.length = 16 ∧ 19 ≤ len ∧ len < 65536 ∧
    s = marker ++ n16 len ++ [ty] ++ rest ∧ ty ∈ [(1 : UInt8), 3, 4, 5] ∧ (ty = 1 ∨ ty = 4 → len ≤ 4096)

open Classical in
/-- A BGP4MP record around such a message; or the Zebra form, which has no interface, family and addresses. -/
def OtherMpMessage (l : AsnLen) (s : Bytes) : Prop :=
  ∃ peer loc msg, AsnFits l peer ∧ AsnFits l loc ∧ OtherMessage msg ∧
    if l = .b16 ∧ ZebraOpen s then s = asnBytes l peer ++ asnBytes l loc ++ msg
    else ∃ i peerIp localIp, s = mpHeadBytes l peer loc i peerIp localIp ++ msg ∧ localIp.isV4 = peerIp.isV4

/-- Records without routes that are not read to their end, so that a mistake in them is not noticed: GEO_PEER_TABLE, BGP4MP
state changes, and BGP4MP messages that are not UPDATEs, behind the header of the message. -/
inductive Overlooked : Raw → Prop where
  | geo (raw) : raw.header.type = .tableDumpV2 → raw.header.subtype = 7 → Overlooked raw
  | state (raw t n l) : raw.header.type ∈ [.bgp4mp, .bgp4mpEt] → mpStateType t = some (n, l) →
      raw.header.subtype = UInt16.ofNat n → Overlooked raw
  | message (raw t n l ap) : raw.header.type ∈ [.bgp4mp, .bgp4mpEt] → mpMessageType t = some (n, l, ap) →
      raw.header.subtype = UInt16.ofNat n → OtherMpMessage l raw.body → Overlooked raw

/-- A RIB entry whose attributes are there in full length, but end after the first octet of a two-octet length. -/
def BrokenEntry (addPath : Bool) (s : Bytes) : Prop :=
  ∃ (peer : UInt16) (time : UInt32) (pid : Option UInt32) (pb ab rest : Bytes) (ws : List Wire) (b : Bytes),
    PathIdBytes addPath pid pb ∧ ab.length < 65536 ∧
    s = n16 peer.toNat ++ n32 time.toNat ++ pb ++ n16 ab.length ++ ab ++ rest ∧
    (∀ w ∈ ws, w.ok) ∧ ab = wireBytes ws ++ b ∧ BrokenRest b

/-- A RIB record in which such an entry comes behind those that can be read. -/
def BrokenRib (r : RibAfi) (s : Bytes) : Prop :=
  ∃ n afi safi ap pb body tail k, ribFamily r.ribType = some (n, afi, safi, ap) ∧ PrefixBytes afi r.prefix_.prefix_ pb ∧
    k < 65536 ∧ s = n32 r.seq.toNat ++ pb ++ n16 k ++ body ++ tail ∧
    Blocks (RibEntryBytes ap afi safi r.prefix_) r.entries body ∧ r.entries.length < k ∧ BrokenEntry ap tail

/-- The records for which an error is reported. -/
inductive FaultyRecord (hist : List MrtRecord) : Raw → Prop where
  | unparsed (raw : Raw) (e : Err) : raw.parse = .error e → ¬ Overlooked raw → FaultyRecord hist raw
  | broken (raw : Raw) (r : MrtRecord) : raw.parse = .ok r → Broken hist r.message → FaultyRecord hist raw
  | entry (raw : Raw) (h : Header) (r : RibAfi) : raw.parse = .ok ⟨h, .tableDumpV2 (.ribAfi r)⟩ → BrokenRib r raw.body →
      FaultyRecord hist raw

/-- The routes and errors: an error in the framing is passed on; the routes of a record are followed by one error that
carries the record if it is faulty. -/
inductive ReportedRoutes : List MrtRecord → List (Except RecErr Raw) → List (Except RecErr RouteElem) → Prop where
  | nil (hist) : ReportedRoutes hist [] []
  | error (hist e items ys) : ReportedRoutes hist items ys → ReportedRoutes hist (.error e :: items) (.error e :: ys)
  | clean (hist) (raw : Raw) (items xs ys) : RecordRoutes hist raw xs → ¬ FaultyRecord hist raw →
      ReportedRoutes (hist ++ recordsOf raw) items ys → ReportedRoutes hist (.ok raw :: items) (xs.map .ok ++ ys)
  | faulty (hist) (raw : Raw) (items xs ys) (e : Err) : RecordRoutes hist raw xs → FaultyRecord hist raw →
      ReportedRoutes (hist ++ recordsOf raw) items ys →
      ReportedRoutes hist (.ok raw :: items) (xs.map .ok ++ .error ⟨e, some raw.bytes⟩ :: ys)

end Verif.Spec
