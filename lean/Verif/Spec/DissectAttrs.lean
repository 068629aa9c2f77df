import Verif.Spec.DissectLabels
import Verif.Spec.Attr
import Verif.Model.DissectAttrs
/-
What a reader of a dissected attribute list should see.
-/
namespace Verif.Spec

/-- the names of the path attributes, by number. -/
def attrTitleTable : List (Nat × String) :=
  [(1, "ORIGIN"), (2, "AS_PATH"), (3, "NEXT_HOP"), (4, "MULTI_EXIT_DISC"), (5, "LOCAL_PREF"), (6, "ATOMIC_AGGREGATE"),
    (7, "AGGREGATOR"), (8, "COMMUNITIES"), (9, "ORIGINATOR_ID"), (10, "CLUSTER_LIST"), (14, "MP_REACH_NLRI"),
    (15, "MP_UNREACH_NLRI"), (16, "EXTENDED_COMMUNITIES"), (17, "AS4_PATH"), (18, "AS4_AGGREGATOR"),
    (22, "PMSI_TUNNEL"), (23, "TUNNEL_ENCAPSULATION"), (24, "TRAFFIC_ENGINEERING"), (25, "IPV6_EXTENDED_COMMUNITIES"),
    (26, "AIGP"), (27, "PE_DISTINGUISHER_LABELS"), (29, "BGP-LS"), (32, "LARGE_COMMUNITY"), (33, "BGPSEC_PATH"),
    (35, "ONLY_TO_CUSTOMER"), (37, "SFP"), (38, "BFD_DISCRIMINATOR"), (40, "BGP_PREFIX_SID"), (41, "BIER")]

/-- the name of an attribute, `ATTRIBUTE` for the others. -/
def titleOf (code : UInt8) : List Char := ((attrTitleTable.lookup code.toNat).getD "ATTRIBUTE").toList

/-- the attribute is shown: its name, number and length, its flags in hexadecimal, and the value that the parser reads. -/
def TreeShows (env : ShowEnv) (cfg : AttrCfg) (w : Wire) (t : AttrTree) : Prop :=
  t.head = titleOf w.code ++ " (type ".toList ++ num w.code.toNat ++ "), ".toList ++ num w.value.length ++ " bytes".toList ∧
  t.fields = ["Flags: 0x".toList ++ hexOf w.flag,
    "Type: ".toList ++ num w.code.toNat ++ " (".toList ++ titleOf w.code ++ ")".toList,
    "Length: ".toList ++ num w.value.length, "Value (".toList ++ num w.value.length ++ " bytes)".toList] ∧
  ∀ v ls, parseAttrVal cfg w.code w.value = .ok v → valueShown env cfg.addPath v = some ls → t.value = ls

/-- an attribute whose value is cut short is the last node, and says so. -/
def CutShows (flag code : UInt8) (len there : Nat) (t : AttrTree) : Prop :=
  t.head = titleOf code ++ " (type ".toList ++ num code.toNat ++ ") — truncated (".toList ++ num there ++ " of ".toList ++
    num len ++ " value bytes)".toList ∧ t.fields = ["Flags: 0x".toList ++ hexOf flag] ∧ t.value = []

end Verif.Spec
