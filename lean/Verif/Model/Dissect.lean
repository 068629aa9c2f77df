import Verif.Model.Mrt
/-
The dissectors: `/repo/src/models/dissection.rs`, `/repo/src/parser/bgp/dissect.rs`, `/repo/src/parser/mrt/dissect.rs`.

The result `none` of a function in this file stands for a Rust panic: an index or a slice out of range, a subtraction
below zero, or an offset or length that does not fit `u32`. The human-readable labels are not modelled; the indexing done
for them is.
-/
namespace Verif

/-- `DissectionNode` (src/models/dissection.rs 42-50) without its `label`. -/
inductive Node where
  | mk (field : String) (offset length : Nat) (children : List Node)
deriving Repr

namespace Node
def field : Node → String | mk f _ _ _ => f
def offset : Node → Nat | mk _ o _ _ => o
def length : Node → Nat | mk _ _ l _ => l
def children : Node → List Node | mk _ _ _ c => c

/-- `DissectionNode::span` (dissection.rs 69-74), a `Span` as a pair. -/
def span (n : Node) : Nat × Nat := (n.offset, n.length)

mutual
/-- `DissectionNode::find` (dissection.rs 77-82). -/
def find (field : String) : Node → Option Node
  | mk f o l cs => if f = field then some (mk f o l cs) else findList field cs
/-- `self.children.iter().find_map(|child| child.find(field))` (dissection.rs 81). -/
def findList (field : String) : List Node → Option Node
  | [] => none
  | c :: cs => match find field c with
    | some n => some n
    | none => findList field cs
end

mutual
/-- `DissectionNode::find_all` (dissection.rs 85-92): what it appends to `out`. -/
def findAll (field : String) : Node → List Node
  | mk f o l cs => (if f = field then [mk f o l cs] else []) ++ findAllList field cs
/-- the loop over the children (dissection.rs 89-91). -/
def findAllList (field : String) : List Node → List Node
  | [] => []
  | c :: cs => findAll field c ++ findAllList field cs
end
end Node

/-- `DissectionNode::new` with the fields computed in `u32` (dissection.rs 53-66); a value that does not fit is a panic
(in a debug build; a release build wraps around). -/
def mkNode (field : String) (offset length : Nat) (children : List Node) : Option Node :=
  if offset < 4294967296 ∧ length < 4294967296 then some (.mk field offset length children) else none

/-- A node that is pushed under a condition. -/
def pushIf (c : Prop) [Decidable c] (n : Option Node) : Option (List Node) := if c then n.map ([·]) else some []

/-- `&data[a..b]`. -/
def subslice (d : Bytes) (a b : Nat) : Option Bytes := if a ≤ b ∧ b ≤ d.length then some ((d.take b).drop a) else none

/-- `a - b` on `usize`. -/
def usub (a b : Nat) : Option Nat := if b ≤ a then some (a - b) else none

/-- `read_u16` (src/parser/bgp/dissect.rs 50-54). -/
def getU16 (d : Bytes) (pos : Nat) : Option Nat :=
  match d[pos]?, d[pos + 1]? with
  | some a, some b => some (u16of a b).toNat
  | _, _ => none

/-- `read_u32(..).is_some()` (bgp/dissect.rs 56-59); the value only goes into a label. -/
def hasU32 (d : Bytes) (pos : Nat) : Bool := decide (pos + 4 ≤ d.length)

/-- `u16::from_be_bytes([data[pos], data[pos + 1]])`: panics where `read_u16` returns `None`. -/
def ixU16 (d : Bytes) (pos : Nat) : Option Nat := do
  let a ← d[pos]?
  let b ← d[pos + 1]?
  return (u16of a b).toNat

/-- A `while` loop that pushes one node per round: `step` is one round, with the result `some none` if the condition is
false or the round breaks before pushing. A round that pushes and then breaks moves the position to the end of the data
instead, where the condition is false. Fuel: more than the data length; every round moves forward. -/
def rounds (step : σ → Option (Option (Node × σ))) : Nat → σ → Option (List Node)
  | 0, _ => none
  | fuel + 1, s =>
    match step s with
    | none => none
    | some none => some []
    | some (some (n, s)) => (rounds step fuel s).map (n :: ·)

/-- One round of `dissect_nlri` (bgp/dissect.rs 799-824). -/
def nlriStep (d : Bytes) (base : Nat) (addPath : Bool) (start : Nat) : Option (Option (Node × Nat)) :=
  if start < d.length then
    if addPath ∧ d.length < start + 5 then some none
    else
      let pos := if addPath then start + 4 else start
      match d[pos]? with
      | none => some none
      | some plen =>
        let octets := (plen.toNat + 7) / 8
        let pos := pos + 1
        if d.length < pos + octets then some none
        else do
          let _ ← subslice d pos (pos + octets)
          let len ← usub (pos + octets) start
          let n ← mkNode "bgp.nlri.prefix" (base + start) len []
          return some (n, pos + octets)
  else some none

/-- `dissect_nlri` (bgp/dissect.rs 796-826). -/
def dissectNlri (d : Bytes) (base : Nat) (addPath : Bool) : Option (List Node) :=
  rounds (nlriStep d base addPath) (d.length + 1) 0

/-- One round over fixed-size entries: communities (bgp/dissect.rs 558-569), cluster list (585-595), extended communities
(693-705), IPv6 extended communities (711-720), large communities (745-757). -/
def entryStep (field : String) (size : Nat) (d : Bytes) (base : Nat) (pos : Nat) : Option (Option (Node × Nat)) :=
  if pos + size ≤ d.length then do
    let _ ← subslice d pos (pos + size)
    let n ← mkNode field (base + pos) size []
    return some (n, pos + size)
  else some none

/-- One round over the segments of an AS path (bgp/dissect.rs 466-497). -/
def segStep (asnSize : Nat) (d : Bytes) (base : Nat) (pos : Nat) : Option (Option (Node × Nat)) :=
  if pos + 2 ≤ d.length then do
    let _ ← d[pos]?
    let count ← d[pos + 1]?
    let segLen := 2 + count.toNat * asnSize
    if d.length < pos + segLen then some none
    else do
      let n ← mkNode "bgp.attr.as_path.segment" (base + pos) segLen []
      return some (n, pos + segLen)
  else some none

/-- One round over the AIGP TLVs (bgp/dissect.rs 725-739). -/
def aigpStep (d : Bytes) (base : Nat) (pos : Nat) : Option (Option (Node × Nat)) :=
  if pos + 3 ≤ d.length then do
    let _ ← d[pos]?
    let len := (getU16 d (pos + 1)).getD 0
    if len < 3 ∨ d.length < pos + len then some none
    else do
      let n ← mkNode "bgp.attr.aigp.entry" (base + pos) len []
      return some (n, pos + len)
  else some none

/-- MP_REACH_NLRI (bgp/dissect.rs 597-669). -/
def dissectMpReach (d : Bytes) (base : Nat) (addPath : Bool) : Option (List Node) :=
  if 4 ≤ d.length then do
    let afi ← mkNode "bgp.attr.mp_reach.afi" base 2 []
    let _ ← d[2]?
    let safi ← mkNode "bgp.attr.mp_reach.safi" (base + 2) 1 []
    let nhLen ← d[3]?
    let nhLen := nhLen.toNat
    let nl ← mkNode "bgp.attr.mp_reach.next_hop_length" (base + 3) 1 []
    if 0 < nhLen ∧ d.length < 4 + nhLen then do
      let len ← usub d.length 4
      let nh ← mkNode "bgp.attr.mp_reach.next_hop" (base + 4) len []
      return [afi, safi, nl, nh]
    else do
      let nh ← pushIf (0 < nhLen) (mkNode "bgp.attr.mp_reach.next_hop" (base + 4) nhLen [])
      let pos := 4 + nhLen
      let res ← pushIf (pos < d.length) (mkNode "bgp.attr.mp_reach.reserved" (base + pos) 1 [])
      let pos := if pos < d.length then pos + 1 else pos
      let ns ← (if pos < d.length then (subslice d pos d.length).bind fun s => dissectNlri s (base + pos) addPath else some [])
      return [afi, safi, nl] ++ nh ++ res ++ ns
  else some []

/-- MP_UNREACH_NLRI (bgp/dissect.rs 670-688). -/
def dissectMpUnreach (d : Bytes) (base : Nat) (addPath : Bool) : Option (List Node) :=
  if 3 ≤ d.length then do
    let afi ← mkNode "bgp.attr.mp_unreach.afi" base 2 []
    let _ ← d[2]?
    let safi ← mkNode "bgp.attr.mp_unreach.safi" (base + 2) 1 []
    let s ← subslice d 3 d.length
    let ns ← dissectNlri s (base + 3) addPath
    return [afi, safi] ++ ns
  else some []

/-- `dissect_attr_value` (bgp/dissect.rs 434-762). -/
def dissectAttrValue (code : UInt8) (d : Bytes) (base asnSize : Nat) (addPath : Bool) : Option (List Node) :=
  if code = 1 then
    match d.head? with
    | some _ => (mkNode "bgp.attr.origin" base 1 []).map ([·])
    | none => some []
  else if code = 2 then rounds (segStep asnSize d base) (d.length + 1) 0
  else if code = 17 then rounds (segStep 4 d base) (d.length + 1) 0
  else if code = 3 then
    if 4 ≤ d.length then (mkNode "bgp.attr.next_hop" base d.length []).map ([·]) else some []
  else if code = 4 ∨ code = 5 ∨ code = 35 then
    if hasU32 d 0 then (mkNode "bgp.attr.u32" base d.length []).map ([·]) else some []
  else if code = 7 ∨ code = 18 then
    if 4 < d.length then do
      let n ← usub d.length 4
      let a ← mkNode "bgp.attr.aggregator.asn" base n []
      let _ ← subslice d n (n + 4)
      let i ← mkNode "bgp.attr.aggregator.id" (base + n) 4 []
      return [a, i]
    else some []
  else if code = 8 then rounds (entryStep "bgp.attr.communities.entry" 4 d base) (d.length + 1) 0
  else if code = 9 then
    if 4 ≤ d.length then (mkNode "bgp.attr.originator_id" base d.length []).map ([·]) else some []
  else if code = 10 then rounds (entryStep "bgp.attr.cluster_list.entry" 4 d base) (d.length + 1) 0
  else if code = 14 then dissectMpReach d base addPath
  else if code = 15 then dissectMpUnreach d base addPath
  else if code = 16 then rounds (entryStep "bgp.attr.ext_communities.entry" 8 d base) (d.length + 1) 0
  else if code = 25 then rounds (entryStep "bgp.attr.ipv6_ext_communities.entry" 20 d base) (d.length + 1) 0
  else if code = 26 then rounds (aigpStep d base) (d.length + 1) 0
  else if code = 32 then rounds (entryStep "bgp.attr.large_communities.entry" 12 d base) (d.length + 1) 0
  else some []

/-- the field name `format!("bgp.attr.{code}")`. -/
def attrField (code : UInt8) : String := "bgp.attr." ++ toString code.toNat

/-- One round of `dissect_attributes` (bgp/dissect.rs 339-426). -/
def attrStep (d : Bytes) (base asnSize : Nat) (addPath : Bool) (pos : Nat) : Option (Option (Node × Nat)) :=
  if pos + 3 ≤ d.length then do
    let flags ← d[pos]?
    let code ← d[pos + 1]?
    let extended := flags &&& 0x10 != 0
    let headerLen := if extended then 4 else 3
    if d.length < pos + headerLen then some none
    else match (if extended then getU16 d (pos + 2) else (d[pos + 2]?).map UInt8.toNat) with
      | none => if extended then some none else none
      | some valueLen =>
        let valueStart := pos + headerLen
        let valueEnd := valueStart + valueLen
        if d.length < valueEnd then do
          let _ ← usub d.length valueStart
          let total ← usub d.length pos
          let f ← mkNode "bgp.attr.flags" (base + pos) 1 []
          let n ← mkNode (attrField code) (base + pos) total [f]
          return some (n, d.length)
        else do
          let f ← mkNode "bgp.attr.flags" (base + pos) 1 []
          let t ← mkNode "bgp.attr.type" (base + pos + 1) 1 []
          let l ← mkNode "bgp.attr.length" (base + pos + 2) (headerLen - 2) []
          let v ← subslice d valueStart valueEnd
          let vs ← dissectAttrValue code v (base + valueStart) asnSize addPath
          let v ← mkNode "bgp.attr.value" (base + valueStart) valueLen vs
          let n ← mkNode (attrField code) (base + pos) (headerLen + valueLen) [f, t, l, v]
          return some (n, valueEnd)
  else some none

/-- the number of octets of an AS number (bgp/dissect.rs 334-337). -/
def AsnLen.octets : AsnLen → Nat
  | .b16 => 2
  | .b32 => 4

/-- `dissect_attributes` (bgp/dissect.rs 326-429). -/
def dissectAttributes (d : Bytes) (base : Nat) (l : AsnLen) (addPath : Bool) : Option (List Node) :=
  rounds (attrStep d base l.octets addPath) (d.length + 1) 0

/-- The part of `dissect_update` after the withdrawn routes (bgp/dissect.rs 267-322). -/
def dissectUpdateTail (d : Bytes) (base : Nat) (l : AsnLen) (addPath : Bool) (pos : Nat) : Option (List Node) :=
  if d.length < pos + 2 then
    if pos < d.length then do
      let len ← usub d.length pos
      let n ← mkNode "bgp.update.path_attributes.length" (base + pos) len []
      return [n]
    else some []
  else do
    let attrLen ← ixU16 d pos
    let al ← mkNode "bgp.update.path_attributes.length" (base + pos) 2 []
    let pos := pos + 2
    let attrEnd := min (pos + attrLen) d.length
    let at' ← (if pos < attrEnd then pushIf True (do
        let s ← subslice d pos attrEnd
        let cs ← dissectAttributes s (base + pos) l addPath
        mkNode "bgp.update.path_attributes" (base + pos) (attrEnd - pos) cs)
      else pushIf (0 < attrLen) (mkNode "bgp.update.path_attributes" (base + pos) 0 []))
    let nl ← pushIf (attrEnd < d.length) (do
        let s ← subslice d attrEnd d.length
        let cs ← dissectNlri s (base + attrEnd) addPath
        let len ← usub d.length attrEnd
        mkNode "bgp.update.nlri" (base + attrEnd) len cs)
    return [al] ++ at' ++ nl

/-- The children that `dissect_update` pushes (bgp/dissect.rs 221-320). -/
def dissectUpdateFields (d : Bytes) (base : Nat) (l : AsnLen) (addPath : Bool) : Option (List Node) :=
  if d.length < 2 then
    pushIf (d ≠ []) (mkNode "bgp.update.withdrawn_routes.length" base d.length [])
  else do
    let wl ← ixU16 d 0
    let w ← mkNode "bgp.update.withdrawn_routes.length" base 2 []
    if d.length < 2 + wl then do
      let len ← usub d.length 2
      let s ← mkNode "bgp.update.withdrawn_routes" (base + 2) len []
      return [w, s]
    else do
      let s ← pushIf (0 < wl) (do
          let b ← subslice d 2 (2 + wl)
          let cs ← dissectNlri b (base + 2) addPath
          mkNode "bgp.update.withdrawn_routes" (base + 2) wl cs)
      let t ← dissectUpdateTail d base l addPath (2 + wl)
      return [w] ++ s ++ t

/-- `dissect_update` (bgp/dissect.rs 218-323). -/
def dissectUpdate (d : Bytes) (base : Nat) (l : AsnLen) (addPath : Bool) : Option Node := do
  let cs ← dissectUpdateFields d base l addPath
  mkNode "bgp.update" base d.length cs

/-- One round over the capabilities of a parameter (bgp/dissect.rs 949-975). -/
def capStep (d : Bytes) (base : Nat) (pos : Nat) : Option (Option (Node × Nat)) :=
  if pos + 2 ≤ d.length then do
    let _ ← d[pos]?
    let len ← d[pos + 1]?
    let len := len.toNat
    if d.length < pos + 2 + len then some none
    else do
      let c ← mkNode "bgp.open.capability.code" (base + pos) 1 []
      let l ← mkNode "bgp.open.capability.length" (base + pos + 1) 1 []
      let n ← mkNode "bgp.open.capability" (base + pos) (2 + len) [c, l]
      return some (n, pos + 2 + len)
  else some none

/-- The part of a round of the parameter loop of `dissect_open` that handles one parameter (bgp/dissect.rs 907-986). -/
def paramNode (d : Bytes) (base : Nat) (extended : Bool) (pos : Nat) (ty : UInt8) : Option (Option (Node × Nat)) :=
  let lenSize := if extended then 2 else 1
  match (if extended then getU16 d (pos + 1) else some ((d[pos + 1]?).getD 0).toNat) with
  | none => some none
  | some valueLen =>
    let headerLen := 1 + lenSize
    if d.length < pos + headerLen + valueLen then some none
    else do
      let t ← mkNode "bgp.open.param.type" (base + pos) 1 []
      let l ← mkNode "bgp.open.param.length" (base + pos + 1) lenSize []
      let v ← subslice d (pos + headerLen) (pos + headerLen + valueLen)
      let vs ← (if ty = 2 then rounds (capStep v (base + (pos + headerLen))) (v.length + 1) 0
        else pushIf True (mkNode "bgp.open.param.value" (base + (pos + headerLen)) valueLen []))
      let n ← mkNode "bgp.open.param" (base + pos) (headerLen + valueLen) ([t, l] ++ vs)
      return some (n, pos + headerLen + valueLen)

/-- One round of the parameter loop of `dissect_open` (bgp/dissect.rs 884-987): the state is the position, `extended` and
`first`. -/
def paramStep (d : Bytes) (base : Nat) (optLen : UInt8) : Nat × Bool × Bool → Option (Option (Node × (Nat × Bool × Bool)))
  | (pos, extended, first) =>
    if pos + 2 ≤ d.length then do
      let ty ← d[pos]?
      if first ∧ ty = 255 ∧ optLen ≠ 0 then
        if d.length < pos + 3 then some none
        else do
          let extLen := (getU16 d (pos + 1)).getD 0
          let n ← mkNode "bgp.open.ext_params_len" (base + pos) 3 []
          return some (n, (if extLen = 0 then d.length else pos + 3), true, false)
      else do
        let r ← paramNode d base extended pos ty
        return r.map fun x => (x.1, x.2, extended, false)
    else some none

/-- The children that `dissect_open` pushes (bgp/dissect.rs 830-987). -/
def dissectOpenFields (d : Bytes) (base : Nat) : Option (List Node) :=
  if d.length < 10 then
    pushIf (d ≠ []) (mkNode "bgp.open.truncated" base d.length [])
  else do
    let v ← mkNode "bgp.open.version" base 1 []
    let a ← mkNode "bgp.open.asn" (base + 1) 2 []
    let h ← mkNode "bgp.open.hold_time" (base + 3) 2 []
    let i ← mkNode "bgp.open.bgp_identifier" (base + 5) 4 []
    let optLen ← d[9]?
    let o ← mkNode "bgp.open.opt_params_len" (base + 9) 1 []
    let ps ← rounds (paramStep d base optLen) (d.length + 1) (10, false, true)
    return [v, a, h, i, o] ++ ps

/-- `dissect_open` (bgp/dissect.rs 828-990). -/
def dissectOpen (d : Bytes) (base : Nat) : Option Node := do
  let cs ← dissectOpenFields d base
  mkNode "bgp.open" base d.length cs

/-- `dissect_notification` (bgp/dissect.rs 1009-1037). -/
def dissectNotification (d : Bytes) (base : Nat) : Option Node := do
  let c ← pushIf (0 < d.length) (mkNode "bgp.notification.code" base 1 [])
  let s ← pushIf (2 ≤ d.length) (mkNode "bgp.notification.subcode" (base + 1) 1 [])
  let x ← pushIf (2 < d.length) (mkNode "bgp.notification.data" (base + 2) (d.length - 2) [])
  mkNode "bgp.notification" base d.length (c ++ s ++ x)

/-- `dissect_route_refresh` (bgp/dissect.rs 1039-1076). -/
def dissectRouteRefresh (d : Bytes) (base : Nat) : Option Node := do
  let a ← pushIf (4 ≤ d.length) (mkNode "bgp.route_refresh.afi" base 2 [])
  let t ← pushIf (4 ≤ d.length) (mkNode "bgp.route_refresh.subtype" (base + 2) 1 [])
  let s ← pushIf (4 ≤ d.length) (mkNode "bgp.route_refresh.safi" (base + 3) 1 [])
  let x ← pushIf (4 < d.length) (mkNode "bgp.route_refresh.data" (base + 4) (d.length - 4) [])
  mkNode "bgp.route_refresh" base d.length (a ++ t ++ s ++ x)

/-- The body of a message by its type (bgp/dissect.rs 188-202). -/
def dissectBody (ty : UInt8) (d : Bytes) (base : Nat) (l : AsnLen) (addPath : Bool) : Option (List Node) :=
  if ty = 1 then (dissectOpen d base).map ([·])
  else if ty = 2 then (dissectUpdate d base l addPath).map ([·])
  else if ty = 3 then (dissectNotification d base).map ([·])
  else if ty = 4 then some []
  else if ty = 5 then (dissectRouteRefresh d base).map ([·])
  else (mkNode "bgp.body" base d.length []).map ([·])

/-- `dissect_bgp_message_base` (bgp/dissect.rs 97-216). -/
def dissectBgpBase (d : Bytes) (base : Nat) (l : AsnLen) (addPath : Bool) : Option Node :=
  if d.length < 19 then do
    let cs ← pushIf (d ≠ []) (mkNode "bgp.header" base d.length [])
    mkNode "bgp" base d.length cs
  else do
    let length ← ixU16 d 16
    let ty ← d[18]?
    let declared := length - 19
    let available ← usub d.length 19
    let bodyLen := min declared available
    let messageLen := 19 + bodyLen
    let m ← mkNode "bgp.header.marker" base 16 []
    let n ← mkNode "bgp.header.length" (base + 16) 2 []
    let t ← mkNode "bgp.header.type" (base + 18) 1 []
    let h ← mkNode "bgp.header" base 19 [m, n, t]
    let cut ← pushIf (available < declared) (mkNode "bgp.truncated" (base + messageLen) 0 [])
    let body ← subslice d 19 (19 + bodyLen)
    let b ← dissectBody ty body (base + 19) l addPath
    let extra ← pushIf (bodyLen < available) (mkNode "bgp.trailing" (base + messageLen) (available - bodyLen) [])
    mkNode "bgp" base messageLen ([h] ++ cut ++ b ++ extra)

/-- `dissect_bgp_message` (bgp/dissect.rs 90-92). -/
def dissectBgpMessage (d : Bytes) (l : AsnLen) (addPath : Bool) : Option Node := dissectBgpBase d 0 l addPath

/-- `walk_bgp4mp_addresses` (src/parser/mrt/dissect.rs 308-379): the nodes pushed, and the position after the addresses. -/
def walkMpAddresses (d : Bytes) (base pos : Nat) : Option (List Node × Option Nat) :=
  if d.length < pos + 4 then do
    let len ← usub d.length pos
    let n ← mkNode "mrt.bgp4mp.truncated" (base + pos) len []
    return ([n], none)
  else do
    let afi := (getU16 d (pos + 2)).getD 0
    let i ← mkNode "mrt.bgp4mp.interface_index" (base + pos) 2 []
    let a ← mkNode "mrt.bgp4mp.afi" (base + (pos + 2)) 2 []
    let pos := pos + 4
    if afi ≠ 1 ∧ afi ≠ 2 then do
      let len ← usub d.length pos
      let n ← mkNode "mrt.bgp4mp.addresses" (base + pos) len []
      return ([i, a, n], none)
    else
      let addrLen := if afi = 1 then 4 else 16
      if d.length < pos + 2 * addrLen then do
        let len ← usub d.length pos
        let n ← mkNode "mrt.bgp4mp.truncated" (base + pos) len []
        return ([i, a, n], none)
      else do
        let _ ← subslice d pos (pos + addrLen)
        let p ← mkNode "mrt.bgp4mp.peer_ip" (base + pos) addrLen []
        let _ ← subslice d (pos + addrLen) (pos + addrLen + addrLen)
        let q ← mkNode "mrt.bgp4mp.local_ip" (base + (pos + addrLen)) addrLen []
        return ([i, a, p, q], some (pos + addrLen + addrLen))

/-- The old and new state (mrt/dissect.rs 241-256 and 283-298). -/
def stateNodes (base pos : Nat) : Option (List Node) := do
  let o ← mkNode "mrt.bgp4mp.old_state" (base + pos) 2 []
  let n ← mkNode "mrt.bgp4mp.new_state" (base + pos + 2) 2 []
  return [o, n]

/-- The children pushed by `dissect_bgp4mp` (mrt/dissect.rs 183-299). -/
def dissectMpFields (d : Bytes) (base : Nat) (subtype : Nat) : Option (List Node) :=
  let as4 := subtype = 4 ∨ subtype = 5 ∨ subtype = 7 ∨ subtype = 9 ∨ subtype = 11
  let size := if as4 then 4 else 2
  let addPath := decide (8 ≤ subtype ∧ subtype ≤ 11)
  let l := if as4 then AsnLen.b32 else AsnLen.b16
  let isMessage := ¬ (subtype = 0 ∨ subtype = 5)
  if d.length < 2 * size then (mkNode "mrt.bgp4mp.truncated" base d.length []).map ([·])
  else do
    let p ← mkNode "mrt.bgp4mp.peer_asn" base size []
    let q ← mkNode "mrt.bgp4mp.local_asn" (base + size) size []
    let pos := size + size
    let rest ← subslice d pos d.length
    if 16 ≤ rest.length ∧ (rest.take 16).all (· == 0xFF) then do
      let z ← mkNode "mrt.bgp4mp.zebra_compat" (base + pos) 0 []
      let m ← dissectBgpBase rest (base + pos) l addPath
      return [p, q, z, m]
    else if ¬ isMessage ∧ size = 2 ∧ d.length = 8 then do
      let s ← stateNodes base pos
      return [p, q] ++ s
    else do
      let (ns, after) ← walkMpAddresses d base pos
      match after with
      | none => return [p, q] ++ ns
      | some pos =>
        if isMessage then do
          let b ← subslice d pos d.length
          let m ← dissectBgpBase b (base + pos) l addPath
          return [p, q] ++ ns ++ [m]
        else if d.length < pos + 4 then do
          let len ← usub d.length pos
          let t ← mkNode "mrt.bgp4mp.truncated" (base + pos) len []
          return [p, q] ++ ns ++ [t]
        else do
          let s ← stateNodes base pos
          return [p, q] ++ ns ++ s

/-- `dissect_bgp4mp` (mrt/dissect.rs 158-302). -/
def dissectMp (d : Bytes) (base : Nat) (subtype : Nat) : Option Node := do
  let cs ← dissectMpFields d base subtype
  mkNode "mrt.bgp4mp" base d.length cs

/-- `dissect_mrt_bytes` (mrt/dissect.rs 43-148). -/
def dissectMrtBytes (d : Bytes) : Option Node :=
  if d.length < 12 then do
    let cs ← pushIf (d ≠ []) (mkNode "mrt.header" 0 d.length [])
    mkNode "mrt" 0 d.length cs
  else do
    let ty := (getU16 d 4).getD 0
    let sub := (getU16 d 6).getD 0
    let isEt : Bool := ty = 17 ∨ ty = 33 ∨ ty = 49
    let headerLen := if isEt then 16 else 12
    let a ← mkNode "mrt.header.timestamp" 0 4 []
    let b ← mkNode "mrt.header.type" 4 2 []
    let c ← mkNode "mrt.header.subtype" 6 2 []
    let e ← mkNode "mrt.header.length" 8 4 []
    if isEt ∧ d.length < 16 then do
      let len ← usub d.length 12
      let m ← mkNode "mrt.header.microsecond" 12 len []
      let h ← mkNode "mrt.header" 0 (min headerLen d.length) [a, b, c, e, m]
      mkNode "mrt" 0 d.length [h]
    else do
      let m ← pushIf (isEt) (mkNode "mrt.header.microsecond" 12 4 [])
      let h ← mkNode "mrt.header" 0 (min headerLen d.length) ([a, b, c, e] ++ m)
      let body ← subslice d headerLen d.length
      if body = [] then mkNode "mrt" 0 d.length [h]
      else do
        let n ← (if ty = 16 ∨ ty = 17 then dissectMp body headerLen sub
          else mkNode "mrt.body" headerLen body.length [])
        mkNode "mrt" 0 d.length [h, n]

/-- `dissect_mrt_record` (mrt/dissect.rs 32-37). -/
def dissectMrtRecord (r : Raw) : Option Node := dissectMrtBytes (r.headerBytes ++ r.body)

end Verif
