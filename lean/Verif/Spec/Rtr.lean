import Verif.Model.Rtr
import Verif.Spec.MrtFrame
/-
RPKI-to-Router PDUs on the wire: the layouts the library uses and those of RFC 6810 and RFC 8210.
-/
namespace Verif.Spec

/-- protocol versions: RFC 6810 is 0, RFC 8210 is 1. -/
def rtrVersionNum : RtrVersion → UInt8
  | .v0 => 0
  | .v1 => 1

/-- error codes (RFC 8210 section 12). -/
def rtrCodeNum : RtrCode → Nat
  | .corruptData => 0
  | .internalError => 1
  | .noDataAvailable => 2
  | .invalidRequest => 3
  | .unsupportedVersion => 4
  | .unsupportedType => 5
  | .withdrawalOfUnknown => 6
  | .duplicateAnnouncement => 7
  | .unexpectedVersion => 8

/-- the common first eight octets: version, type, a two-octet field, the length of the whole PDU. -/
def rtrStart (v : RtrVersion) (type : UInt8) (field : Bytes) (len : Nat) : Bytes :=
  rtrVersionNum v :: type :: (field ++ n32 len)

/-- `b` is a PDU with the given content in the library's layout. Reserved octets, and octets behind the text of an Error
Report but within its length, are free. -/
inductive PduBytes : Pdu → Bytes → Prop where
  | serialNotify (v s n) : PduBytes (.serialNotify v s n) (rtrStart v 0 (n16 s.toNat) 12 ++ n32 n.toNat)
  | serialQuery (v s n) : PduBytes (.serialQuery v s n) (rtrStart v 1 (n16 s.toNat) 12 ++ n32 n.toNat)
  | resetQuery (v z) : z.length = 2 → PduBytes (.resetQuery v) (rtrStart v 2 z 8)
  | cacheResponse (v s) : PduBytes (.cacheResponse v s) (rtrStart v 3 (n16 s.toNat) 8)
  | ipv4Prefix (v f) (l m : UInt8) (p a z y) : l.toNat ≤ m.toNat → m.toNat ≤ 32 → z.length = 2 →
      PduBytes (.ipv4Prefix v f l m p a) (rtrStart v 4 z 20 ++ (f :: l :: m :: y :: (p.toList ++ n32 a.toNat)))
  | ipv6Prefix (v f) (l m : UInt8) (p a z y) : l.toNat ≤ m.toNat → m.toNat ≤ 128 → z.length = 2 →
      PduBytes (.ipv6Prefix v f l m p a) (rtrStart v 6 z 32 ++ (f :: l :: m :: y :: (p.toList ++ n32 a.toNat)))
  | endOfDataV0 (s n) : PduBytes (.endOfData .v0 s n none none none) (rtrStart .v0 7 (n16 s.toNat) 12 ++ n32 n.toNat)
  | endOfDataV1 (s n r t e) : PduBytes (.endOfData .v1 s n (some r) (some t) (some e))
      (rtrStart .v1 7 (n16 s.toNat) 24 ++ (n32 n.toNat ++ (n32 r.toNat ++ (n32 t.toNat ++ n32 e.toNat))))
  | cacheReset (v z) : z.length = 2 → PduBytes (.cacheReset v) (rtrStart v 8 z 8)
  | routerKey (f k a spki z y) : z.length = 2 → 34 + spki.length < 4294967296 →
      PduBytes (.routerKey .v1 f k a spki)
        (rtrStart .v1 9 z (34 + spki.length) ++ (f :: y :: (k.toList ++ (n32 a.toNat ++ spki))))
  | errorReport (v c p t slack) : utf8Ok t = true → 16 + p.length + t.length + slack.length < 4294967296 →
      PduBytes (.errorReport v c p t)
        (rtrStart v 10 (n16 (rtrCodeNum c)) (16 + p.length + t.length + slack.length) ++
          (n32 p.length ++ (p ++ (n32 t.length ++ (t ++ slack)))))

/-- what a PDU must satisfy to have a layout: prefix lengths in range, intervals in version 1 and only there, router keys
in version 1 only, text that is UTF-8, a length that fits. -/
def PduOk : Pdu → Prop
  | .ipv4Prefix _ _ l m _ _ => l.toNat ≤ m.toNat ∧ m.toNat ≤ 32
  | .ipv6Prefix _ _ l m _ _ => l.toNat ≤ m.toNat ∧ m.toNat ≤ 128
  | .endOfData .v0 _ _ r t e => r = none ∧ t = none ∧ e = none
  | .endOfData .v1 _ _ r t e => r.isSome ∧ t.isSome ∧ e.isSome
  | .routerKey v _ _ _ spki => v = .v1 ∧ 34 + spki.length < 4294967296
  | .errorReport _ _ p t => utf8Ok t = true ∧ 16 + p.length + t.length < 4294967296
  | _ => True

/-- The PDUs of RFC 6810 section 5 (version 0) and RFC 8210 section 5 (version 1). The Router Key PDU (RFC 8210, 5.10) has
its Flags and a zero octet in the two-octet field of the header. -/
inductive RfcPdu : Pdu → Bytes → Prop where
  | serialNotify (v s n) : RfcPdu (.serialNotify v s n) (rtrStart v 0 (n16 s.toNat) 12 ++ n32 n.toNat)
  | serialQuery (v s n) : RfcPdu (.serialQuery v s n) (rtrStart v 1 (n16 s.toNat) 12 ++ n32 n.toNat)
  | resetQuery (v) : RfcPdu (.resetQuery v) (rtrStart v 2 [0, 0] 8)
  | cacheResponse (v s) : RfcPdu (.cacheResponse v s) (rtrStart v 3 (n16 s.toNat) 8)
  | ipv4Prefix (v f) (l m : UInt8) (p a) : l.toNat ≤ m.toNat → m.toNat ≤ 32 →
      RfcPdu (.ipv4Prefix v f l m p a) (rtrStart v 4 [0, 0] 20 ++ (f :: l :: m :: 0 :: (p.toList ++ n32 a.toNat)))
  | ipv6Prefix (v f) (l m : UInt8) (p a) : l.toNat ≤ m.toNat → m.toNat ≤ 128 →
      RfcPdu (.ipv6Prefix v f l m p a) (rtrStart v 6 [0, 0] 32 ++ (f :: l :: m :: 0 :: (p.toList ++ n32 a.toNat)))
  | endOfDataV0 (s n) : RfcPdu (.endOfData .v0 s n none none none) (rtrStart .v0 7 (n16 s.toNat) 12 ++ n32 n.toNat)
  | endOfDataV1 (s n r t e) : RfcPdu (.endOfData .v1 s n (some r) (some t) (some e))
      (rtrStart .v1 7 (n16 s.toNat) 24 ++ (n32 n.toNat ++ (n32 r.toNat ++ (n32 t.toNat ++ n32 e.toNat))))
  | cacheReset (v) : RfcPdu (.cacheReset v) (rtrStart v 8 [0, 0] 8)
  | routerKey (f k a spki) : 32 + spki.length < 4294967296 → RfcPdu (.routerKey .v1 f k a spki)
        (rtrStart .v1 9 [f, 0] (32 + spki.length) ++ (k.toList ++ (n32 a.toNat ++ spki)))
  | errorReport (v c p t) : utf8Ok t = true → 16 + p.length + t.length < 4294967296 →
      RfcPdu (.errorReport v c p t)
        (rtrStart v 10 (n16 (rtrCodeNum c)) (16 + p.length + t.length) ++
          (n32 p.length ++ (p ++ (n32 t.length ++ t))))

/-- the length a PDU announces: octets 4 to 8. -/
def RtrAnnounces (d : Bytes) (n : Nat) : Prop := n < 4294967296 ∧ ∃ h t, h.length = 4 ∧ d = h ++ (n32 n ++ t)

/-- the type octet. -/
def HasType (d : Bytes) (ty : UInt8) : Prop := ∃ v t, d = v :: ty :: t

/-- the assigned type numbers (RFC 8210 section 14; 5 and 11 and above are not assigned there, 255 is reserved). -/
def rtrTypeKnown (b : UInt8) : Prop := b.toNat ≤ 10 ∧ b.toNat ≠ 5

/-- `d` holds all the octets it announces. -/
def Complete (d : Bytes) (n : Nat) : Prop := 8 ≤ d.length ∧ RtrAnnounces d n ∧ n ≤ d.length

/-- the lengths of the types that have one length. -/
def rtrFixedLen (v : RtrVersion) (ty : UInt8) : Option Nat :=
  if ty = 0 ∨ ty = 1 then some 12
  else if ty = 2 ∨ ty = 3 ∨ ty = 8 then some 8
  else if ty = 4 then some 20
  else if ty = 6 then some 32
  else if ty = 7 then some (match v with | .v0 => 12 | .v1 => 24)
  else none

/-- What can be wrong with `d`, which holds the `n` octets it announces, and how it is reported. -/
inductive RtrFault (d : Bytes) (n : Nat) : RtrErr → Prop where
  | version (b t) : d = b :: t → 2 ≤ b.toNat → RtrFault d n (.badVersion b)
  | type (v b t) : d = rtrVersionNum v :: b :: t → ¬ rtrTypeKnown b → RtrFault d n (.badType b)
  | length (v ty f t) (want got : UInt32) : d = rtrStart v ty f n ++ t → rtrFixedLen v ty = some want.toNat → n ≠ want.toNat →
      got.toNat = n → f.length = 2 → RtrFault d n (.badLength want got ty)
  | keyInV0 (f t) : d = rtrStart .v0 9 f n ++ t → RtrFault d n .routerKeyInV0
  | keyShort (f t) (want got : UInt32) : d = rtrStart .v1 9 f n ++ t → n < 34 → want.toNat = 34 → got.toNat = n →
      RtrFault d n (.badLength want got 9)
  | prefix_ (v ty) (k l m : UInt8) (fl f t) : f.length = 2 → (ty = 4 ∧ k = 32 ∧ n = 20) ∨ (ty = 6 ∧ k = 128 ∧ n = 32) →
      d = rtrStart v ty f n ++ (fl :: l :: m :: t) → m.toNat < l.toNat ∨ k.toNat < m.toNat →
      RtrFault d n (.badPrefixLength l m k)
  | reportShort (v f t) (want got : UInt32) : d = rtrStart v 10 f n ++ t → n < 16 → want.toNat = 16 → got.toNat = n →
      RtrFault d n (.badLength want got 10)
  | code (v t) (x : UInt16) : d = rtrStart v 10 (n16 x.toNat) n ++ t → 16 ≤ n → 8 < x.toNat → RtrFault d n (.badCode x)
  | encap (v f) (e : UInt32) (t) (want got : UInt32) : d = rtrStart v 10 f n ++ (n32 e.toNat ++ t) → n < 16 + e.toNat →
      want.toNat = min (16 + e.toNat) 4294967295 → got.toNat = n → RtrFault d n (.badLength want got 10)
  | text (v f p) (m : UInt32) (t) (want got : UInt32) : d = rtrStart v 10 f n ++ (n32 p.length ++ (p ++ (n32 m.toNat ++ t))) →
      16 + p.length ≤ n → n < 16 + p.length + m.toNat → want.toNat = min (16 + p.length + m.toNat) 4294967295 → got.toNat = n →
      RtrFault d n (.badLength want got 10)
  | utf8 (v f p text t) : d = rtrStart v 10 f n ++ (n32 p.length ++ (p ++ (n32 text.length ++ (text ++ t)))) →
      16 + p.length + text.length ≤ n → utf8Ok text = false → RtrFault d n .badUtf8

end Verif.Spec
