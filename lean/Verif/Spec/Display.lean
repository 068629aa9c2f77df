import Verif.Model.Display
import Verif.Spec.Filter
import Verif.Spec.Layout
/-
How elements and their fields are written as text.
-/
namespace Verif.Spec

/-- A number in decimal without leading zeros. -/
inductive Numeral : List Char → Nat → Prop where
  | digit (d : Fin 10) : Numeral [digitChar d] d.val
  | more {t : List Char} {n : Nat} (d : Fin 10) : Numeral t n → n ≠ 0 → Numeral (t ++ [digitChar d]) (10 * n + d.val)

/-- the hexadecimal digits in capitals. -/
def capitalHex : List Char := "0123456789ABCDEF".toList

/-- Bytes in hexadecimal: two capital digits for each. -/
inductive Hex : List Char → Bytes → Prop where
  | nil : Hex [] []
  | cons {h l : Char} {b : UInt8} {t : List Char} {bs : Bytes} : capitalHex[b.toNat / 16]? = some h →
      capitalHex[b.toNat % 16]? = some l → Hex t bs → Hex (h :: l :: t) (b :: bs)

/-- The line consists of these fields, with the separator between them and nowhere else. -/
inductive Fields (sep : Char) : List Char → List (List Char) → Prop where
  | last {f : List Char} : sep ∉ f → Fields sep f [f]
  | more {f r : List Char} {fs : List (List Char)} : sep ∉ f → Fields sep r fs → Fields sep (f ++ sep :: r) (f :: fs)

/-- The items are written in this order, with the separator between them. -/
inductive Listed (shows : α → List Char → Prop) (sep : Char) : List α → List Char → Prop where
  | nil : Listed shows sep [] []
  | last {x : α} {t : List Char} : shows x t → Listed shows sep [x] t
  | more {x y : α} {xs : List α} {t r : List Char} : shows x t → Listed shows sep (y :: xs) r → Listed shows sep (x :: y :: xs) (t ++ sep :: r)

/-! ### assumptions about std -/

/-- What is assumed of the output of std: IPv6 addresses are written with digits, small letters, dots and colons, at least two of
the latter, and different ones differently; floating point numbers are written with digits, letters, dots and minus signs. -/
structure ShowOk (env : ShowEnv) : Prop where
  v6_chars : ∀ a, ∀ c ∈ env.v6 a, c.isAlphanum = true ∨ c = '.' ∨ c = ':'
  v6_colons : ∀ a, 2 ≤ (env.v6 a).count ':'
  v6_inj : ∀ a b, env.v6 a = env.v6 b → a = b
  time_chars : ∀ t, ∀ c ∈ env.time t, c.isAlphanum = true ∨ c = '.' ∨ c = '-'
  f32_chars : ∀ x, ∀ c ∈ env.f32 x, c.isAlphanum = true ∨ c = '.' ∨ c = '-'

/-! ### addresses and paths -/

/-- An IPv4 address: four numbers with dots between them. -/
def ShowsV4 (a : V4) (t : List Char) : Prop := Listed (fun (b : UInt8) t => Numeral t b.toNat) '.' a.toList t

/-- An address. -/
inductive ShowsIp (env : ShowEnv) : Ip → List Char → Prop where
  | v4 {a t} : ShowsV4 a t → ShowsIp env (.v4 a) t
  | v6 {a} : ShowsIp env (.v6 a) (env.v6 a)

/-- A prefix: the address, a slash and the length. -/
def ShowsNet (env : ShowEnv) (n : IpNet) (t : List Char) : Prop :=
  ∃ a l, ShowsIp env n.addr a ∧ Numeral l n.len.toNat ∧ t = a ++ '/' :: l

/-- An AS number. -/
def ShowsAsn (a : Asn) (t : List Char) : Prop := Numeral t a.toNat

/-- What stands between blanks in an AS path: an AS number, a set, or (for a sequence without AS numbers) nothing. -/
inductive PathWord where
  | hop (a : Asn)
  | set (xs : List Asn)
  | gap

/-- the words of a segment. -/
def segWords : Seg → List PathWord
  | .seq xs => if xs = [] then [.gap] else xs.map .hop
  | .confedSeq xs => if xs = [] then [.gap] else xs.map .hop
  | .set xs => [.set xs]
  | .confedSet xs => [.set xs]

/-- the words of a path. -/
def pathWords (p : AsPath) : List PathWord := if p = [] then [.gap] else p.flatMap segWords

/-- A word of a path: sets in braces, with commas. -/
inductive ShowsWord : PathWord → List Char → Prop where
  | hop {a t} : ShowsAsn a t → ShowsWord (.hop a) t
  | set {xs t} : Listed ShowsAsn ',' xs t → ShowsWord (.set xs) ('{' :: t ++ ['}'])
  | gap : ShowsWord .gap []

/-- An AS path. -/
def ShowsPath (p : AsPath) (t : List Char) : Prop := Listed ShowsWord ' ' (pathWords p) t

/-! ### communities -/

/-- texts with colons between them. -/
def Parts (sh : List (List Char → Prop)) (t : List Char) : Prop := Listed (fun (f : List Char → Prop) t => f t) ':' sh t

/-- an octet in decimal. -/
def Octet (b : UInt8) (t : List Char) : Prop := Numeral t b.toNat

/-- An extended community. -/
inductive ShowsExt (env : ShowEnv) : ExtCommunity → List Char → Prop where
  | as2 {st a l t} : Parts [Octet 0, Octet st, ShowsAsn a, (Hex · l.toList)] t → ShowsExt env (.twoOctetAs st a l) t
  | ip4 {st a l t} : Parts [Octet 1, Octet st, ShowsV4 a, (Hex · l.toList)] t → ShowsExt env (.ipv4Addr st a l) t
  | as4 {st a l t} : Parts [Octet 2, Octet st, ShowsAsn a, (Hex · l.toList)] t → ShowsExt env (.fourOctetAs st a l) t
  | opaq {st v t} : Parts [Octet 3, Octet st, (Hex · v.toList)] t → ShowsExt env (.opaq st v) t
  | ntAs2 {st a l t} : Parts [Octet 64, Octet st, ShowsAsn a, (Hex · l.toList)] t → ShowsExt env (.ntTwoOctetAs st a l) t
  | ntIp4 {st a l t} : Parts [Octet 65, Octet st, ShowsV4 a, (Hex · l.toList)] t → ShowsExt env (.ntIpv4Addr st a l) t
  | ntAs4 {st a l t} : Parts [Octet 66, Octet st, ShowsAsn a, (Hex · l.toList)] t → ShowsExt env (.ntFourOctetAs st a l) t
  | ntOpaq {st v t} : Parts [Octet 67, Octet st, (Hex · v.toList)] t → ShowsExt env (.ntOpaque st v) t
  | rate {a r n} : Numeral n a.toNat → ShowsExt env (.trafficRate a r) ("rate:".toList ++ env.f32 r ++ " bytes/sec (AS ".toList ++ n ++ [')'])
  | action {a t s n} : Numeral n a.toNat →
      ShowsExt env (.trafficAction a t s) ("action:".toList ++ (if t && s then "terminal,sample" else if t then "terminal" else
        if s then "sample" else "").toList ++ " (AS ".toList ++ n ++ [')'])
  | redirect {st a l n h} : Numeral n a.toNat → Hex h l.toList → ShowsExt env (.redirect st a l) ("redirect:AS".toList ++ n ++ ':' :: h)
  | marking {a d n m} : Numeral n a.toNat → Numeral m d.toNat →
      ShowsExt env (.trafficMarking a d) ("mark:DSCP".toList ++ m ++ " (AS ".toList ++ n ++ [')'])
  | bandwidth {g b tr t} : Parts [Octet (if tr then 0 else 64), Octet 4, (Numeral · g.toNat), (· = env.f32 b)] t →
      ShowsExt env (.linkBandwidth g b tr) t
  | raw {b t} : Hex t b.toList → ShowsExt env (.raw b) t

/-- A community. -/
inductive ShowsCommunity (env : ShowEnv) : MetaCommunity → List Char → Prop where
  | noExport : ShowsCommunity env (.plain .noExport) "no-export".toList
  | noAdvertise : ShowsCommunity env (.plain .noAdvertise) "no-advertise".toList
  | subConfed : ShowsCommunity env (.plain .noExportSubConfed) "no-export-sub-confed".toList
  | custom {a v t} : Parts [ShowsAsn a, (Numeral · v.toNat)] t → ShowsCommunity env (.plain (.custom a v)) t
  | large {c t} : Parts [(Numeral · c.globalAdmin.toNat), (Numeral · c.local1.toNat), (Numeral · c.local2.toNat)] t →
      ShowsCommunity env (.large c) t
  | ext {c t} : ShowsExt env c t → ShowsCommunity env (.extended c) t
  | ip6 {c t} : Parts [Octet c.type.toU8, Octet c.subtype, (· = env.v6 c.addr), (Hex · c.loc.toList)] t →
      ShowsCommunity env (.ipv6Extended c) t

/-! ### elements -/

/-- What stands in the column of this name. A value that is absent is an empty field. -/
inductive Shows (env : ShowEnv) (e : BgpElem) : String → List Char → Prop where
  | announce : e.type = .announce → Shows env e "type" ['A']
  | withdraw : e.type = .withdraw → Shows env e "type" ['W']
  | time : Shows env e "timestamp" (env.time e.time)
  | peerIp {t} : ShowsIp env e.peerIp t → Shows env e "peer_ip" t
  | peerAsn {t} : ShowsAsn e.peerAsn t → Shows env e "peer_asn" t
  | pfx {t} : ShowsNet env e.prefix_.prefix_ t → Shows env e "prefix" t
  | path {p t} : e.asPath = some p → ShowsPath p t → Shows env e "as_path" t
  | noPath : e.asPath = none → Shows env e "as_path" []
  | origins {xs t} : e.originAsns = some xs → Listed ShowsAsn ' ' xs t → Shows env e "origin_asns" t
  | noOrigins : e.originAsns = none → Shows env e "origin_asns" []
  | igp : e.origin = some .igp → Shows env e "origin" "IGP".toList
  | egp : e.origin = some .egp → Shows env e "origin" "EGP".toList
  | incomplete : e.origin = some .incomplete → Shows env e "origin" "INCOMPLETE".toList
  | noOrigin : e.origin = none → Shows env e "origin" []
  | nextHop {a t} : e.nextHop = some a → ShowsIp env a t → Shows env e "next_hop" t
  | noNextHop : e.nextHop = none → Shows env e "next_hop" []
  | localPref {n t} : e.localPref = some n → Numeral t n.toNat → Shows env e "local_pref" t
  | noLocalPref : e.localPref = none → Shows env e "local_pref" []
  | med {n t} : e.med = some n → Numeral t n.toNat → Shows env e "med" t
  | noMed : e.med = none → Shows env e "med" []
  | communities {cs t} : e.communities = some cs → Listed (ShowsCommunity env) ' ' cs t → Shows env e "communities" t
  | noCommunities : e.communities = none → Shows env e "communities" []
  | atomic : e.atomic = true → Shows env e "atomic" "true".toList
  | notAtomic : e.atomic = false → Shows env e "atomic" "false".toList
  | aggrAsn {a t} : e.aggrAsn = some a → ShowsAsn a t → Shows env e "aggr_asn" t
  | noAggrAsn : e.aggrAsn = none → Shows env e "aggr_asn" []
  | aggrIp {a t} : e.aggrIp = some a → ShowsV4 a t → Shows env e "aggr_ip" t
  | noAggrIp : e.aggrIp = none → Shows env e "aggr_ip" []
  | otc {a t} : e.otc = some a → ShowsAsn a t → Shows env e "only_to_customer" t
  | noOtc : e.otc = none → Shows env e "only_to_customer" []

/-- A line with these columns. -/
def Line (env : ShowEnv) (e : BgpElem) (columns : List String) (line : List Char) : Prop :=
  ∃ fs, Fields '|' line fs ∧ Pairwise2 (Shows env e) columns fs ∧ '\n' ∉ line

/-! ### what a line tells -/

/-- Two communities that are written alike: the same, or the same but for a number that is written alike or the kind of a redirect. -/
inductive SameCommunity (env : ShowEnv) : MetaCommunity → MetaCommunity → Prop where
  | same (c) : SameCommunity env c c
  | rate {a r r'} : env.f32 r = env.f32 r' → SameCommunity env (.extended (.trafficRate a r)) (.extended (.trafficRate a r'))
  | redirect {st st' a l} : SameCommunity env (.extended (.redirect st a l)) (.extended (.redirect st' a l))
  | bandwidth {g b b' t} : env.f32 b = env.f32 b' → SameCommunity env (.extended (.linkBandwidth g b t)) (.extended (.linkBandwidth g b' t))
  | bandwidthAs2 {g : UInt16} {b l} {a : Asn} : a.toNat = g.toNat → Hex (env.f32 b) l.toList →
      SameCommunity env (.extended (.linkBandwidth g b true)) (.extended (.twoOctetAs 4 a l))
  | bandwidthNtAs2 {g : UInt16} {b l} {a : Asn} : a.toNat = g.toNat → Hex (env.f32 b) l.toList →
      SameCommunity env (.extended (.linkBandwidth g b false)) (.extended (.ntTwoOctetAs 4 a l))
  | ip6 {ty ty' st a l} : ty.toU8 = ty'.toU8 → SameCommunity env (.ipv6Extended ⟨ty, st, a, l⟩) (.ipv6Extended ⟨ty', st, a, l⟩)
  | symm {c c'} : SameCommunity env c c' → SameCommunity env c' c

/-- Two elements that are written alike: the same but for the kind and the bounds of path segments, path identifiers, absent lists
as opposed to empty ones, times and communities that are written alike, and what is not written at all. -/
structure SameShown (env : ShowEnv) (e e' : BgpElem) : Prop where
  type : e.type = e'.type
  time : env.time e.time = env.time e'.time
  peerIp : e.peerIp = e'.peerIp
  peerAsn : e.peerAsn = e'.peerAsn
  pfx : e.prefix_.prefix_ = e'.prefix_.prefix_
  path : pathWords (e.asPath.getD []) = pathWords (e'.asPath.getD [])
  origin : e.origin = e'.origin
  nextHop : e.nextHop = e'.nextHop
  localPref : e.localPref = e'.localPref
  med : e.med = e'.med
  communities : Pairwise2 (SameCommunity env) (e.communities.getD []) (e'.communities.getD [])
  atomic : e.atomic = e'.atomic
  aggrAsn : e.aggrAsn = e'.aggrAsn
  aggrIp : e.aggrIp = e'.aggrIp

/-- Two elements whose lines with all sixteen columns are alike: the same origins and the same AS to whose customers it is limited, too. -/
structure SameShownFull (env : ShowEnv) (e e' : BgpElem) : Prop extends SameShown env e e' where
  origins : e.originAsns.getD [] = e'.originAsns.getD []
  otc : e.otc = e'.otc

/-- Two route elements that are written alike. -/
structure SameShownRoute (env : ShowEnv) (e e' : RouteElem) : Prop where
  type : e.type = e'.type
  time : env.time e.time = env.time e'.time
  peerIp : e.peerIp = e'.peerIp
  peerAsn : e.peerAsn = e'.peerAsn
  pfx : e.prefix_.prefix_ = e'.prefix_.prefix_
  path : pathWords (e.asPath.getD []) = pathWords (e'.asPath.getD [])

/-- Paths without confederation segments, of which no two neighbours are sequences and none is an empty sequence. -/
def PlainPath : AsPath → Prop
  | [] => True
  | [.seq xs] => xs ≠ []
  | [.set _] => True
  | .seq xs :: .set ys :: r => xs ≠ [] ∧ PlainPath (.set ys :: r)
  | .set _ :: s :: r => PlainPath (s :: r)
  | _ => False

/-- A text for an AS number: a number in decimal, alone or after `AS`. -/
def AsnWord (s : List Char) (a : Asn) : Prop := Decimal s a ∨ ∃ r, s = 'A' :: 'S' :: r ∧ Decimal r a

/-! ### the order of elements -/

/-- the number that an address stands for. -/
def octetsNat (bs : Bytes) : Nat := bs.foldl (fun n b => n * 256 + b.toNat) 0

/-- IPv4 addresses come before IPv6 addresses, and those of a kind in the order of their numbers. -/
inductive IpBefore : Ip → Ip → Prop where
  | v4 {a b : V4} : octetsNat a.toList < octetsNat b.toList → IpBefore (.v4 a) (.v4 b)
  | v6 {a b : V6} : octetsNat a.toList < octetsNat b.toList → IpBefore (.v6 a) (.v6 b)
  | mixed {a b} : IpBefore (.v4 a) (.v6 b)

/-- earlier, or at the same time from a peer whose address comes before. -/
def Before (t : Nat) (p : Ip) (t' : Nat) (p' : Ip) : Prop := t < t' ∨ t = t' ∧ IpBefore p p'

end Verif.Spec
