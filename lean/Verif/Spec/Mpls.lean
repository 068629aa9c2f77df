import Verif.Model.Mpls
import Verif.Spec.Nlri
/-
Well-formed labelled prefixes and the wire shape of a labelled NLRI.
-/
namespace Verif.Spec

/-- bit `i` (from the most significant) of a byte string, 0 beyond its end. -/
def addrBit (o : Bytes) (i : Nat) : Bool := (o.getD (i / 8) 0).toNat.testBit (7 - i % 8)

/-- no bit of the address beyond the prefix length is set. -/
def NoHostBits (p : IpNet) : Prop := ∀ i, p.len.toNat ≤ i → addrBit p.addr.octets i = false

instance (p : IpNet) : Decidable (NoHostBits p) :=
  decidable_of_iff (∀ i : Fin 128, p.len.toNat ≤ i.val → addrBit p.addr.octets i.val = false)
    ⟨fun h i hi => by
      by_cases hl : i < 128
      · exact h ⟨i, hl⟩ hi
      · have hlen : p.addr.octets.length ≤ 16 := by cases p.addr <;> simp [Ip.octets]
        have : p.addr.octets.getD (i / 8) 0 = 0 := by
          rw [List.getD_eq_getElem?_getD, List.getElem?_eq_none (by omega)]; rfl
        simp only [addrBit, this]; simp,
     fun h i hi => h i.val hi⟩

/-- A labelled prefix that a session with this address family, Add-Path setting, mode and label limits can carry. -/
structure LabeledOk (afi : Afi) (cfg : LabelCfg) (p : LabeledPrefix) : Prop where
  family : FamilyOk afi p.prefix_.addr ∧ afi ≠ .linkState
  len : LenOk afi p.prefix_.len
  host : NoHostBits p.prefix_
  path : p.pathId.isSome = cfg.addPath
  nonempty : p.labels ≠ []
  labels : ∀ l ∈ p.labels, l.toNat < 2 ^ 20
  fits : 24 * p.labels.length + p.prefix_.len.toNat ≤ 255
  mode : match cfg.mode with
    | .single => p.labels.length = 1
    | .multi => p.labels.length ≤ cfg.maxLabels.toNat ∧ ∀ m, cfg.peerMax = some m → p.labels.length ≤ m.toNat

/-- The three bytes `t` stand for label `l`; the bottom-of-stack bit is `bos`. The three bits between are free. -/
def LabelBytes (t : Bytes) (l : Label) (bos : Bool) : Prop :=
  ∃ a b c : UInt8, t = [a, b, c] ∧ l.toNat = (a.toNat * 65536 + b.toNat * 256 + c.toNat) / 16 ∧
    (bos = true ↔ c.toNat % 2 = 1)

/-- A label stack on the wire: bottom-of-stack is set on the last label and on no other. -/
inductive StackBytes : Bytes → List Label → Prop
  | last {t l} : LabelBytes t l true → StackBytes t [l]
  | more {t l ts ls} : LabelBytes t l false → StackBytes ts ls → StackBytes (t ++ ts) (l :: ls)

end Verif.Spec
