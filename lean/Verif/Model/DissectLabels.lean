import Verif.Model.Dissect
import Verif.Model.Display
/-
The human-readable labels of the nodes of a dissected path attribute value: `/repo/src/parser/bgp/dissect.rs`.
`Verif.Model.Dissect` models the nodes without their labels; this file gives, in the order of the nodes, the labels.
A loop over a position in the value is a loop over the octets from that position on. Nothing here can panic: the indexing
is that of `Verif.Model.Dissect`.
-/
namespace Verif

/-- A `while` loop that pushes one label per round: `step idx s` is one round at the octets `s`, with the running number
of the entry, `none` where the loop ends. Fuel: more than the number of octets; every round moves forward. -/
def labels (step : Nat → Bytes → Option (List Char × Bytes)) : Nat → Nat → Bytes → List (List Char)
  | 0, _, _ => []
  | fuel + 1, idx, s =>
    match step idx s with
    | none => []
    | some (t, r) => t :: labels step fuel (idx + 1) r

/-- the loop on a whole value; entries are numbered from 1. -/
def loopLabels (step : Nat → Bytes → Option (List Char × Bytes)) (s : Bytes) : List (List Char) :=
  labels step (s.length + 1) 1 s

/-- `render_prefix` (bgp/dissect.rs 61-84); `octets.resize(n, 0)` is `padVec n`. -/
def prefixLabel (env : ShowEnv) (v4 : Bool) (plen : UInt8) (octets : Bytes) : List Char :=
  if v4 then v4Text (padVec 4 octets) ++ ['/'] ++ decText plen.toNat
  else env.v6 (padVec 16 octets) ++ ['/'] ++ decText plen.toNat

/-- One round of `dissect_nlri` (bgp/dissect.rs 799-824). -/
def nlriLabelStep (env : ShowEnv) (v4 addPath : Bool) (_ : Nat) (s : Bytes) : Option (List Char × Bytes) :=
  match s with
  | [] => none
  | _ :: _ =>
    if addPath ∧ s.length < 5 then none
    else match (if addPath then s.drop 4 else s) with
      | [] => none
      | plen :: r =>
        let octets := (plen.toNat + 7) / 8
        if r.length < octets then none else some (prefixLabel env v4 plen (r.take octets), r.drop octets)

/-- the labels of `dissect_nlri` (bgp/dissect.rs 796-826). -/
def nlriLabels (env : ShowEnv) (v4 addPath : Bool) (s : Bytes) : List (List Char) := loopLabels (nlriLabelStep env v4 addPath) s

/-- the segment type names (bgp/dissect.rs 473-479). -/
def segLabelName (t : UInt8) : List Char :=
  if t = 1 then lit "AS_SET" else if t = 2 then lit "AS_SEQUENCE" else if t = 3 then lit "AS_CONFED_SEQUENCE"
  else if t = 4 then lit "AS_CONFED_SET" else lit "UNKNOWN"

/-- one AS number of a segment, `unwrap_or(0)` past the end (bgp/dissect.rs 483-487). -/
def asnAt (asnSize : Nat) (s : Bytes) : Nat :=
  if asnSize = 2 then
    match s with
    | a :: b :: _ => (u16of a b).toNat
    | _ => 0
  else
    match s with
    | a :: b :: c :: d :: _ => (u32of a b c d).toNat
    | _ => 0

/-- One round over the segments of an AS path (bgp/dissect.rs 466-497). -/
def segLabelStep (asnSize : Nat) (_ : Nat) (s : Bytes) : Option (List Char × Bytes) :=
  match s with
  | ty :: count :: r =>
    if r.length < count.toNat * asnSize then none
    else
      let asns := (List.range count.toNat).map fun i => decText (asnAt asnSize (r.drop (i * asnSize)))
      some (segLabelName ty ++ lit ": " ++ joinSep [' '] asns, r.drop (count.toNat * asnSize))
  | _ => none

/-- the label of a numbered entry, `format!("{name} [{idx}]: ..")`. -/
def entryLabel (name : String) (idx : Nat) (text : List Char) : List Char :=
  lit name ++ lit " [" ++ decText idx ++ lit "]: " ++ text

/-- One round over communities (bgp/dissect.rs 557-569). -/
def communityLabelStep (idx : Nat) (s : Bytes) : Option (List Char × Bytes) :=
  match s with
  | a :: b :: c :: d :: r =>
    some (entryLabel "Community" idx (decText (u16of a b).toNat ++ lit ":" ++ decText (u16of c d).toNat), r)
  | _ => none

/-- One round over the cluster list (bgp/dissect.rs 584-595). -/
def clusterLabelStep (idx : Nat) (s : Bytes) : Option (List Char × Bytes) :=
  match s with
  | a :: b :: c :: d :: r => some (entryLabel "Cluster ID" idx (decText (u32of a b c d).toNat), r)
  | _ => none

/-- `format!("{b:02X}")`. -/
def hex2 (b : UInt8) : List Char := hexText [b]

/-- `render_ext_community` (bgp/dissect.rs 764-794). -/
def extLabel (t st : UInt8) (v0 v1 v2 v3 v4 v5 : UInt8) : List Char :=
  let head := lit "type 0x" ++ hex2 t ++ lit " subtype 0x" ++ hex2 st ++ lit ": "
  let low := t &&& 0x0F
  if low = 0 then head ++ decText (u16of v0 v1).toNat ++ lit ":" ++ decText (u32of v2 v3 v4 v5).toNat
  else if low = 1 then head ++ v4Text #v[v0, v1, v2, v3] ++ lit ":" ++ decText (u16of v4 v5).toNat
  else if low = 2 then head ++ decText (u32of v0 v1 v2 v3).toNat ++ lit ":" ++ decText (u16of v4 v5).toNat
  else head ++ joinSep [' '] ([v0, v1, v2, v3, v4, v5].map hex2)

/-- One round over extended communities (bgp/dissect.rs 692-705). -/
def extLabelStep (idx : Nat) (s : Bytes) : Option (List Char × Bytes) :=
  match s with
  | t :: st :: v0 :: v1 :: v2 :: v3 :: v4 :: v5 :: r =>
    some (entryLabel "Extended community" idx (extLabel t st v0 v1 v2 v3 v4 v5), r)
  | _ => none

/-- One round over IPv6 extended communities (bgp/dissect.rs 710-720). -/
def ipv6ExtLabelStep (idx : Nat) (s : Bytes) : Option (List Char × Bytes) :=
  if s.length < 20 then none else some (lit "IPv6 extended community [" ++ decText idx ++ lit "]", s.drop 20)

/-- One round over the AIGP TLVs (bgp/dissect.rs 725-739). -/
def aigpLabelStep (_ : Nat) (s : Bytes) : Option (List Char × Bytes) :=
  match s with
  | t :: a :: b :: _ =>
    let len := (u16of a b).toNat
    if len < 3 ∨ s.length < len then none
    else some (lit "AIGP TLV: type " ++ decText t.toNat ++ lit ", " ++ decText len ++ lit " bytes", s.drop len)
  | _ => none

/-- One round over large communities (bgp/dissect.rs 744-757). -/
def largeLabelStep (idx : Nat) (s : Bytes) : Option (List Char × Bytes) :=
  match s with
  | a :: b :: c :: d :: e :: f :: g :: h :: i :: j :: k :: l :: r =>
    some (entryLabel "Large community" idx (decText (u32of a b c d).toNat ++ lit ":" ++ decText (u32of e f g h).toNat ++
      lit ":" ++ decText (u32of i j k l).toNat), r)
  | _ => none

/-- the AFI names (bgp/dissect.rs 601-606). -/
def afiLabel (afi : Nat) : List Char :=
  lit "AFI: " ++ decText afi ++ lit " (" ++
    (if afi = 1 then lit "IPv4" else if afi = 2 then lit "IPv6" else if afi = 25 then lit "L2VPN" else lit "unknown") ++ lit ")"

/-- MP_REACH_NLRI (bgp/dissect.rs 597-669). -/
def mpReachLabels (env : ShowEnv) (addPath : Bool) (d : Bytes) : List (List Char) :=
  match d with
  | a :: b :: safi :: nhLen :: r =>
    let afi := (u16of a b).toNat
    let n := nhLen.toNat
    let head := [afiLabel afi, lit "SAFI: " ++ decText safi.toNat, lit "Next hop length: " ++ decText n]
    if 0 < n ∧ r.length < n then
      head ++ [lit "Next hop (truncated: " ++ decText r.length ++ lit " of " ++ decText n ++ lit " bytes)"]
    else
      let nh := if 0 < n then [lit "Next hop (" ++ decText n ++ lit " bytes)"] else []
      match r.drop n with
      | [] => head ++ nh
      | _ :: r => head ++ nh ++ [lit "Reserved"] ++ nlriLabels env (afi == 1) addPath r
  | _ => []

/-- MP_UNREACH_NLRI (bgp/dissect.rs 670-688). -/
def mpUnreachLabels (env : ShowEnv) (addPath : Bool) (d : Bytes) : List (List Char) :=
  match d with
  | a :: b :: safi :: r =>
    let afi := (u16of a b).toNat
    [lit "AFI: " ++ decText afi, lit "SAFI: " ++ decText safi.toNat] ++ nlriLabels env (afi == 1) addPath r
  | _ => []

/-- AGGREGATOR (bgp/dissect.rs 525-552): the AS number is the first four octets of a value of length 8, otherwise the
first two. -/
def aggregatorLabels (d : Bytes) : List (List Char) :=
  if 4 < d.length then
    let n := d.length - 4
    let asn := if n = 4 then asnAt 4 d else asnAt 2 d
    [lit "Aggregator ASN: " ++ decText asn, lit "Aggregator router ID: " ++ v4Text (padVec 4 (d.drop n))]
  else []

/-- the name of an ORIGIN (bgp/dissect.rs 446-451). -/
def originLabelName (v : UInt8) : List Char :=
  if v = 0 then lit "IGP" else if v = 1 then lit "EGP" else if v = 2 then lit "INCOMPLETE" else lit "INVALID"

/-- a value whose first four octets are shown as one number (bgp/dissect.rs 510-523). -/
def u32Labels (name : String) (d : Bytes) : List (List Char) :=
  match d with
  | a :: b :: c :: e :: _ => [lit name ++ lit ": " ++ decText (u32of a b c e).toNat]
  | _ => []

/-- a value whose first four octets are shown as an IPv4 address (bgp/dissect.rs 499-508, 571-580). -/
def v4Labels (name : String) (d : Bytes) : List (List Char) :=
  match d with
  | a :: b :: c :: e :: _ => [lit name ++ lit ": " ++ v4Text #v[a, b, c, e]]
  | _ => []

/-- the labels of `dissect_attr_value` (bgp/dissect.rs 434-762). -/
def attrLabels (env : ShowEnv) (code : UInt8) (d : Bytes) (asnSize : Nat) (addPath : Bool) : List (List Char) :=
  if code = 1 then
    match d with
    | v :: _ => [lit "Origin: " ++ originLabelName v ++ lit " (" ++ decText v.toNat ++ lit ")"]
    | [] => []
  else if code = 2 then loopLabels (segLabelStep asnSize) d
  else if code = 17 then loopLabels (segLabelStep 4) d
  else if code = 3 then v4Labels "Next hop" d
  else if code = 4 then u32Labels "Multi-exit discriminator" d
  else if code = 5 then u32Labels "Local preference" d
  else if code = 35 then u32Labels "Only to customer" d
  else if code = 7 ∨ code = 18 then aggregatorLabels d
  else if code = 8 then loopLabels communityLabelStep d
  else if code = 9 then v4Labels "Originator ID" d
  else if code = 10 then loopLabels clusterLabelStep d
  else if code = 14 then mpReachLabels env addPath d
  else if code = 15 then mpUnreachLabels env addPath d
  else if code = 16 then loopLabels extLabelStep d
  else if code = 25 then loopLabels ipv6ExtLabelStep d
  else if code = 26 then loopLabels aigpLabelStep d
  else if code = 32 then loopLabels largeLabelStep d
  else []

end Verif
