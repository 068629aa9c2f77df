import Verif.Spec.Mrt
/-
What it takes for a value that was read to be written and read again unchanged.
-/
namespace Verif.Spec

/-- The parameters under which the library reads attributes: those of a session (UPDATE messages and TABLE_DUMP entries),
or those of a TABLE_DUMP_V2 RIB record with its prefix. -/
inductive ReadCfg : AttrCfg → Prop where
  | session (addPath : Bool) (l : AsnLen) : ReadCfg (updateCfg addPath l)
  | rib {t : V2Type} {n : Nat} {afi : Afi} {safi : Safi} {addPath : Bool} {p : NetworkPrefix} {b : Bytes} :
      ribFamily t = some (n, afi, safi, addPath) → PrefixBytes afi p.prefix_ b → p.pathId = none →
      ReadCfg (ribCfg addPath afi safi p)

/-- The NLRI of an MP_REACH_NLRI or MP_UNREACH_NLRI attribute that can be written: no link-state NLRI, no prefix under the
link-state family, and path identifiers on all prefixes if the reader expects them. -/
structure NlriRewritable (addPath : Bool) (n : Nlri) : Prop where
  noLinkState : n.linkState.getD [] = []
  family : n.afi = .linkState → n.prefixes = []
  path : addPath = true → ∀ p ∈ n.prefixes, p.pathId ≠ none

/-- The attribute values that can be written and read again: all but
- an AGGREGATOR whose AS number needs four octets where two are written,
- a tunnel sub-TLV of a type with a one-octet length and a value of more than 255 octets,
- an MP_REACH_NLRI without next hop,
- labelled withdrawals,
- the NLRI excluded above. -/
def Rewritable (cfg : AttrCfg) : AttrVal → Prop
  | .aggregator a _ => cfg.asnLen = .b16 → a.toNat < 65536
  | .tunnel ts => ∀ t ∈ ts, ∀ s ∈ t.subs, s.type.toNat < 128 → s.value.length < 256
  | .mpReach n => n.nextHop ≠ none ∧ NlriRewritable cfg.addPath n
  | .mpUnreach n => (n.safi = .mplsLabel → n.prefixes = []) ∧ NlriRewritable cfg.addPath n
  | _ => True

/-- The messages that can be written and read again: no OPEN parameter of type 255, and no OPEN that outgrows 4096 octets;
of an UPDATE, the attributes above, and no UPDATE that outgrows 65535 octets (an AGGREGATOR of six octets is written with
eight in a session with four-octet AS numbers). -/
def MessageRewritable (addPath : Bool) (l : AsnLen) : BgpMessage → Prop
  | .open m => (∀ p ∈ m.params, p.type ≠ 255) ∧ ∀ b, encodeOpen m = .ok b → b.length + 19 ≤ 4096
  | .update u => (∀ x ∈ u.attributes.inner, Rewritable (updateCfg addPath l) x.value) ∧
      ∀ b, encodeAttributes l u.attributes.inner = .ok b →
        (encodeNlri u.withdrawn).length + b.length + (encodeNlri u.announced).length + 23 ≤ 65535
  | _ => True

/-- The RIB entries that can be written and read again: the attributes above, within the two-octet length of the field. -/
def EntryRewritable (cfg : AttrCfg) (e : RibEntry) : Prop :=
  (∀ x ∈ e.attributes.inner, Rewritable cfg x.value) ∧
    ∀ b, encodeAttributes .b32 e.attributes.inner = .ok b → b.length < 65536

end Verif.Spec
