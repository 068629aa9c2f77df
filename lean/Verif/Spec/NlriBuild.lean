import Verif.Model.NlriBuild
import Verif.Spec.Attr
/-
NLRI built by hand: what link-local is, and what it means that a path attribute survives being written.
-/
namespace Verif.Spec

/-- link-local addresses: 169.254.0.0/16 (RFC 3927) and fe80::/10 (RFC 4291, 2.5.6). -/
def LinkLocalAddr : Ip → Prop
  | .v4 a => a[0].toNat = 169 ∧ a[1].toNat = 254
  | .v6 a => 0xfe80 ≤ a[0].toNat * 256 + a[1].toNat ∧ a[0].toNat * 256 + a[1].toNat < 0xfec0

instance (a : Ip) : Decidable (LinkLocalAddr a) := by unfold LinkLocalAddr; cases a <;> infer_instance

/-- The path attribute can be written, and is read as it was. -/
def Survives (cfg : AttrCfg) (a : Attribute) : Prop :=
  ∃ bs out, encodeAttributes cfg.asnLen [a] = .ok bs ∧ parseAttributes cfg bs = .ok out ∧ out.inner = [a]

end Verif.Spec
