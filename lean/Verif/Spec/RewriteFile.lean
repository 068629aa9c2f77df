import Verif.Spec.Rewrite
import Verif.Spec.MrtRecord
/-
What it takes for an MRT record that was read to be written and read again unchanged.
-/
namespace Verif.Spec

/-- The TABLE_DUMP entries that can be written and read again: `Rewritable` attributes, within the two-octet length. -/
def DumpRewritable (m : TableDump) : Prop :=
  (∀ x ∈ m.attributes.inner, Rewritable dumpCfg x.value) ∧
    ∀ b, encodeAttributes .b16 m.attributes.inner = .ok b → b.length < 65536

/-- The messages of the deprecated type 5 that can be written and read again. They have no length field of their own; an
OPEN must still be writable at all (no parameter of type 255, and parameters within 65535 octets in the form with the longer
lengths). -/
def LegacyRewritable : BgpMessage → Prop
  | .open m => ∃ b, encodeOpen m = .ok b
  | .update u => (∀ x ∈ u.attributes.inner, Rewritable (updateCfg false .b16) x.value) ∧
      ∀ b, encodeAttributes .b16 u.attributes.inner = .ok b → b.length < 65536
  | _ => True

/-- The record bodies that can be written and read again: all peer tables and state changes; geo tables with an ASCII
name; RIB and TABLE_DUMP records and messages as above. -/
def BodyRewritable : MrtMessage → Prop
  | .tableDump m => DumpRewritable m
  | .tableDumpBatch ms => ∀ m ∈ ms, DumpRewritable m
  | .tableDumpV2 (.peerIndexTable _) => True
  | .tableDumpV2 (.ribAfi r) => ∀ n afi safi ap, ribFamily r.ribType = some (n, afi, safi, ap) →
      ∀ e ∈ r.entries, EntryRewritable (ribCfg ap afi safi r.prefix_) e
  | .tableDumpV2 (.ribGeneric _) => False
  | .tableDumpV2 (.geo t) => Ascii t.viewName
  | .bgp4mp (.message m) => ∀ n l ap, mpMessageType m.msgType = some (n, l, ap) → MessageRewritable ap l m.message
  | .bgp4mp (.stateChange _) => True
  | .legacyBgp (.message m) => LegacyRewritable m.message
  | .legacyBgp (.stateChange _) => True

/-- A record as it comes from a file: a frame, with a body that parses. -/
def WasRead (r : MrtRecord) : Prop := ∃ raw b, Frame raw b ∧ raw.parse = .ok r

/-- The records that can be written and read again: the bodies above, if they do not outgrow the 16 MiB the reader accepts. -/
def RecordRewritable (r : MrtRecord) : Prop :=
  BodyRewritable r.message ∧ ∀ b, encodeMrtMessage r.message r.header.subtype = .ok b → b.length ≤ 16777216

end Verif.Spec
