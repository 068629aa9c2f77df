import Verif.Lemmas.Community
/-
C46: communities.
-/
namespace Verif.Props
open Spec

/-- C46. A list of standard communities survives encoding and parsing exactly when every member is canonical. -/
theorem c46_standard_roundtrip (cs : List Community) :
    parseCommunities (encodeCommunities cs) = .ok cs ↔ ∀ c ∈ cs, CommunityOk c := by
  constructor
  · intro h; exact many_all rdCommunity_ok h
  · intro h
    refine many_encode cs fun c hc => ⟨?_, rdCommunity_enc (h c hc)⟩
    intro he; have := length_encCommunity c; rw [he] at this; simp at this

/-- C46. Every multiple of four bytes parses, to canonical communities that encode to the same bytes. -/
theorem c46_standard_bytes (s : Bytes) (h : s.length % 4 = 0) :
    ∃ cs, parseCommunities s = .ok cs ∧ encodeCommunities cs = s ∧ ∀ c ∈ cs, CommunityOk c := by
  have hex : ∀ n (s : Bytes), s.length = 4 * n → ∃ cs : List Community, s = encodeCommunities cs ∧ ∀ c ∈ cs, CommunityOk c := by
    intro n
    induction n with
    | zero => intro s h; exact ⟨[], by simp at h; simp [h, encodeCommunities], by simp⟩
    | succ n ih =>
      intro s h
      match s, h with
      | a :: b :: c :: d :: r, h =>
        obtain ⟨cs, h1, h2⟩ := ih r (by simp at h; omega)
        obtain ⟨x, hr⟩ := rdCommunity_total a b c d r
        · have hs := rdCommunity_sound hr
          have hok := rdCommunity_ok _ _ _ hr
          refine ⟨x :: cs, ?_, ?_⟩
          · rw [hs, h1]; simp [encodeCommunities]
          · intro y hy
            rcases List.mem_cons.mp hy with rfl | hy
            · exact hok
            · exact h2 y hy
  obtain ⟨cs, h1, h2⟩ := hex (s.length / 4) s (by omega)
  exact ⟨cs, by rw [h1]; exact (c46_standard_roundtrip cs).mpr h2, h1.symm, h2⟩

/-- C46. Large communities: every list survives, with no condition. -/
theorem c46_large_roundtrip (cs : List LargeCommunity) :
    parseLargeCommunities (encodeLargeCommunities cs) = .ok cs := by
  rw [parseLargeCommunities, assertCount_many rdLarge_consumes (by decide)]
  exact many_encode cs fun c _ => ⟨by simp [encLarge, be32], rdLarge_enc c⟩

/-- C46. Extended communities survive exactly when every member is canonical. -/
theorem c46_extended_roundtrip (cs : List ExtCommunity) :
    parseExtCommunities (encodeExtCommunities cs) = .ok cs ↔ ∀ c ∈ cs, ExtCommunityOk c := by
  rw [parseExtCommunities, assertCount_many rdExt_consumes (by decide)]
  constructor
  · intro h; exact many_all rdExt_ok h
  · intro h
    refine many_encode cs fun c hc => ⟨?_, rdExt_enc (h c hc)⟩
    intro he; have := length_encExt c; rw [he] at this; simp at this

/-- C46. IPv6 extended communities survive exactly when every member is canonical. -/
theorem c46_ipv6_extended_roundtrip (cs : List Ipv6ExtCommunity) :
    parseIpv6ExtCommunities (encodeIpv6ExtCommunities cs) = .ok cs ↔ ∀ c ∈ cs, Ipv6ExtCommunityOk c := by
  rw [parseIpv6ExtCommunities, assertCount_many rdIpv6Ext_consumes (by decide)]
  constructor
  · intro h; exact many_all rdIpv6Ext_ok h
  · intro h
    exact many_encode cs fun c hc => ⟨by simp [encIpv6Ext], rdIpv6Ext_enc (h c hc)⟩

/-- C46. Whatever the community parsers return is canonical, so it survives re-encoding; and for standard, large and
IPv6 extended communities the re-encoding is the input. -/
theorem c46_parsed_is_canonical :
    (∀ s cs, parseCommunities s = .ok cs → (∀ c ∈ cs, CommunityOk c) ∧ encodeCommunities cs = s) ∧
    (∀ s cs, parseLargeCommunities s = .ok cs → encodeLargeCommunities cs = s) ∧
    (∀ s cs, parseExtCommunities s = .ok cs → (∀ c ∈ cs, ExtCommunityOk c) ∧ (encodeExtCommunities cs).length = s.length) ∧
    (∀ s cs, parseIpv6ExtCommunities s = .ok cs → (∀ c ∈ cs, Ipv6ExtCommunityOk c) ∧ encodeIpv6ExtCommunities cs = s) := by
  refine ⟨?_, ?_, ?_, ?_⟩
  · intro s cs h
    exact ⟨many_all rdCommunity_ok h, (many_sound (P := fun _ => True) (fun s a r h => ⟨rdCommunity_sound h, trivial⟩) h).1.symm⟩
  · intro s cs h
    rw [parseLargeCommunities, assertCount_many rdLarge_consumes (by decide)] at h
    exact (many_sound (P := fun _ => True) (fun s a r h => ⟨rdLarge_sound h, trivial⟩) h).1.symm
  · intro s cs h
    rw [parseExtCommunities, assertCount_many rdExt_consumes (by decide)] at h
    refine ⟨many_all rdExt_ok h, ?_⟩
    rw [many_length rdExt_consumes h, encodeExtCommunities]
    clear h
    induction cs with
    | nil => rfl
    | cons c cs ih => simp [length_encExt, ih]; omega
  · intro s cs h
    rw [parseIpv6ExtCommunities, assertCount_many rdIpv6Ext_consumes (by decide)] at h
    exact ⟨many_all rdIpv6Ext_ok h, (many_sound (P := fun _ => True) (fun s a r h => ⟨rdIpv6Ext_sound h, trivial⟩) h).1.symm⟩

/-- C46. No community parser panics (including the debug assertion on the number of communities). -/
theorem c46_no_panic (s : Bytes) :
    parseCommunities s ≠ .error .panic ∧ parseLargeCommunities s ≠ .error .panic ∧
    parseExtCommunities s ≠ .error .panic ∧ parseIpv6ExtCommunities s ≠ .error .panic := by
  refine ⟨many_noPanic' rdCommunity_noPanic (by decide) rdCommunity_consumes s, ?_, ?_, ?_⟩
  · rw [parseLargeCommunities, assertCount_many rdLarge_consumes (by decide)]
    exact many_noPanic' rdLarge_noPanic (by decide) rdLarge_consumes s
  · rw [parseExtCommunities, assertCount_many rdExt_consumes (by decide)]
    exact many_noPanic' rdExt_noPanic (by decide) rdExt_consumes s
  · rw [parseIpv6ExtCommunities, assertCount_many rdIpv6Ext_consumes (by decide)]
    exact many_noPanic' rdIpv6Ext_noPanic (by decide) rdIpv6Ext_consumes s

/-- `3356:100`, `no-export`, `65535:0` are canonical. -/
example : ∀ c ∈ [Community.custom 3356 100, .noExport, .custom 65535 0], CommunityOk c := by decide +kernel

example : ∀ c ∈ [ExtCommunity.twoOctetAs 2 65000 #v[0, 0, 0, 100], .fourOctetAs 3 400000 #v[0, 7],
    .linkBandwidth 65000 0x4B989680 true, .trafficAction 64500 true false, .redirect 8 64500 #v[0, 0, 1, 2],
    .raw #v[0x80, 6, 0, 0, 1, 2, 3, 4]], ExtCommunityOk c := by decide +kernel

example : parseCommunities [0x0D, 0x1C, 0, 100, 0xFF, 0xFF, 0xFF, 0x01] = .ok [.custom 3356 100, .noExport] := by
  decide +kernel

/-- Disagreement with "for every value": a `Custom(65535, 0xFF01)` built by a caller comes back as `NoExport`, and a
`Custom` with a 32-bit ASN comes back truncated to 16 bits (the value is not rejected by the encoder). -/
theorem c46_custom_not_preserved :
    parseCommunities (encodeCommunities [.custom 65535 0xFF01]) = .ok [.noExport] ∧
    parseCommunities (encodeCommunities [.custom 65536 7]) = .ok [.custom 0 7] := by
  decide +kernel

end Verif.Props
