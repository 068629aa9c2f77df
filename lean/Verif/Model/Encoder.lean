import Verif.Model.Mrt
import Verif.Model.Elem
import Verif.Model.F64
/-
The encoders that collect elements and export an MRT file (src/encoder/rib_encoder.rs, src/encoder/updates_encoder.rs).
-/
namespace Verif

/-- An element handed to an encoder. Its `timestamp` is the `f64` `stamp` (the field `time` of `elem`, the same instant in
whole microseconds, is not looked at), and `four` is `peer_asn.is_four_byte()`. NaN is not modelled. -/
structure ElemIn where
  elem : BgpElem
  stamp : Rat
  four : Bool
deriving DecidableEq, Repr

/-- The orders in which `HashMap`s are iterated: any order, and another one for every map. Number 0 is the map of the
prefixes, number `k + 1` the map of the entries of the prefix that comes out at position `k`. -/
structure HashOrder where
  order : {α : Type} → Nat → List α → List α
  perm : ∀ {α : Type} (n : Nat) (l : List α), (order n l).Perm l

/-- `MrtRibEncoder` (rib_encoder.rs 27-34). The maps are association lists without repeated keys. -/
structure RibEncoder where
  table : PeerIndexTable
  entries : List (IpNet × List (UInt16 × RibEntry))
  stamp : Rat
deriving DecidableEq, Repr

/-- `MrtRibEncoder::new`, and the state after `reset` (rib_encoder.rs 37-45). -/
def RibEncoder.new : RibEncoder := ⟨.empty, [], 0⟩

/-- `bgp_identifier` and `peer` (rib_encoder.rs 59-63). -/
def ElemIn.peer (i : ElemIn) : Peer :=
  Peer.new (match i.elem.peerIp with | .v4 a => a | .v6 _ => v4zero) i.elem.peerIp i.elem.peerAsn i.four

/-- `entry` (rib_encoder.rs 69-74). -/
def ElemIn.entry (i : ElemIn) (id : UInt16) : RibEntry :=
  ⟨id, f64ToU32 i.stamp, i.elem.prefix_.pathId, i.elem.toAttributes⟩

/-- `MrtRibEncoder::process_elem` (rib_encoder.rs 55-77): the result and the new state. -/
def RibEncoder.processElem (x : RibEncoder) (i : ElemIn) : Except EncErr Unit × RibEncoder :=
  let x := if x.stamp = 0 then { x with stamp := i.stamp } else x
  match x.table.addPeer i.peer with
  | .error e => (.error e, x)
  | .ok (id, t) =>
    let es := (amGet i.elem.prefix_.prefix_ x.entries).getD []
    (.ok (), { x with table := t, entries := amInsert i.elem.prefix_.prefix_ (amInsert id (i.entry id) es) x.entries })

/-- `rib_type_for_prefix` (rib_encoder.rs 18-25). -/
def ribTypeFor (p : IpNet) (addPath : Bool) : V2Type :=
  match !p.addr.isV4, addPath with
  | true, true => .v6UniAp
  | true, false => .v6Uni
  | false, true => .v4UniAp
  | false, false => .v4Uni

/-- A message with its header as the exporters write it: `data_bytes.len() as u32` is not checked (rib_encoder.rs 98-108,
126-136; updates_encoder.rs 60-71). -/
def frameMessage (time : UInt32) (micro : Option UInt32) (ty : EntryType) (subtype : UInt16) (m : MrtMessage) : Except EncErr Bytes :=
  match encodeMrtMessage m subtype with
  | .error e => .error e
  | .ok b =>
    match encodeHeader ⟨time, micro, ty, subtype, UInt32.ofNat b.length⟩ with
    | .error e => .error e
    | .ok h => .ok (h ++ b)

/-- `prefix_rib_entry` (rib_encoder.rs 113-124). -/
def ribOf (o : HashOrder) (k : Nat) (p : IpNet) (m : List (UInt16 × RibEntry)) : RibAfi :=
  ⟨ribTypeFor p ((m.map Prod.snd).any fun e => e.pathId.isSome), UInt32.ofNat k, ⟨p, none⟩, (o.order (k + 1) m).map Prod.snd⟩

/-- the loop over the prefixes (rib_encoder.rs 111-139), from position `k` on. -/
def exportRibs (o : HashOrder) (time : UInt32) : Nat → List (IpNet × List (UInt16 × RibEntry)) → Except EncErr Bytes
  | _, [] => .ok []
  | k, (p, m) :: r =>
    let rib := ribOf o k p m
    match frameMessage time none .tableDumpV2 rib.ribType.toU16 (.tableDumpV2 (.ribAfi rib)) with
    | .error e => .error e
    | .ok b =>
      match exportRibs o time (k + 1) r with
      | .error e => .error e
      | .ok c => .ok (b ++ c)

/-- `MrtRibEncoder::export_bytes` (rib_encoder.rs 88-144): the result and the new state. -/
def RibEncoder.exportBytes (o : HashOrder) (x : RibEncoder) : Except EncErr Bytes × RibEncoder :=
  let time := (convertTimestamp x.stamp).1
  match frameMessage time none .tableDumpV2 V2Type.peerIndexTable.toU16 (.tableDumpV2 (.peerIndexTable x.table)) with
  | .error e => (.error e, x)
  | .ok b =>
    match exportRibs o time 0 (o.order 0 x.entries) with
    | .error e => (.error e, x)
    | .ok c => (.ok (b ++ c), .new)

/-! ### updates -/

/-- `mrt_message` (updates_encoder.rs 34-56) with `From<&BgpElem> for BgpUpdateMessage` (src/parser/bgp/messages.rs 740-748). -/
def ElemIn.mpMessage (i : ElemIn) : MpMessage :=
  ⟨.messageAs4, i.elem.peerAsn, 0, 0, i.elem.peerIp,
    match i.elem.peerIp with | .v4 _ => .v4 v4zero | .v6 _ => .v6 (.replicate 16 0),
    .update ⟨[], i.elem.toAttributes, []⟩⟩

/-- the loop over the elements (updates_encoder.rs 33-72). -/
def exportUpdates : List ElemIn → Except EncErr Bytes
  | [] => .ok []
  | i :: r =>
    let t := convertTimestamp i.stamp
    match frameMessage t.1 (some t.2) .bgp4mpEt 4 (.bgp4mp (.message i.mpMessage)) with
    | .error e => .error e
    | .ok b =>
      match exportUpdates r with
      | .error e => .error e
      | .ok c => .ok (b ++ c)

/-- `MrtUpdatesEncoder` (updates_encoder.rs 12-15): the cached elements. -/
abbrev UpdatesEncoder := List ElemIn

/-- `MrtUpdatesEncoder::process_elem` (updates_encoder.rs 26-28). -/
def UpdatesEncoder.processElem (x : UpdatesEncoder) (i : ElemIn) : UpdatesEncoder := x ++ [i]

/-- `MrtUpdatesEncoder::export_bytes` (updates_encoder.rs 30-77): the result and the new state. -/
def UpdatesEncoder.exportBytes (x : UpdatesEncoder) : Except EncErr Bytes × UpdatesEncoder :=
  match exportUpdates x with
  | .error e => (.error e, x)
  | .ok b => (.ok b, [])

end Verif
