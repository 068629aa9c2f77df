import Verif.Lemmas.MrtMsgs
import Verif.Model.Mrt
/-
Parsing a record body never panics.
-/
namespace Verif

theorem rdPeer_noPanic : NoPanic rdPeer :=
  .bind .rdU8 fun _ => .bind (.rdVec 4) fun _ => .bind (.rdAddr _) fun _ => .bind (.rdAsn _) fun _ => .pure _

theorem parsePeerIndexTable_noPanic : NoPanic parsePeerIndexTable :=
  .bind (.rdVec 4) fun _ => .bind .rdU16 fun _ => .bind (.rdN _) fun _ => .bind .rdU16 fun _ =>
    .bind (.rdTimes rdPeer_noPanic _) fun _ => .pure _

theorem rdV4_noPanic : NoPanic rdV4 := .rdVec 4

theorem rdGeoPeer_noPanic : NoPanic rdGeoPeer :=
  .bind .rdU8 fun _ => .bind rdV4_noPanic fun _ =>
    .bind (.ite (fun _ => .bind (.rdVec 16) fun _ => .pure _) fun _ => .bind rdV4_noPanic fun _ => .pure _) fun _ =>
      .bind (.rdAsn _) fun _ => .bind .rdU32 fun _ => .bind .rdU32 fun _ => .pure _

theorem parseGeoPeerTable_noPanic : NoPanic parseGeoPeerTable :=
  .bind rdV4_noPanic fun _ => .bind .rdU16 fun _ => .bind (.rdN _) fun _ => .bind .rdU32 fun _ => .bind .rdU32 fun _ =>
    .bind .rdU16 fun _ => .bind (.rdTimes rdGeoPeer_noPanic _) fun _ => .pure _

theorem parseTableDumpV2_noPanic (subtype : UInt16) (s : Bytes) : parseTableDumpV2 subtype s ≠ .error .panic := by
  unfold parseTableDumpV2
  split
  · simp
  · exact mapOk_noPanic (NoPanic.runOn parsePeerIndexTable_noPanic s)
  · simp
  · simp
  · exact mapOk_noPanic (NoPanic.runOn parseGeoPeerTable_noPanic s)
  · exact mapOk_noPanic (parseRibAfi_noPanic _ _)

theorem parseMrtBody_noPanic (t : EntryType) (subtype : UInt16) (d : Bytes) : parseMrtBody t subtype d ≠ .error .panic := by
  unfold parseMrtBody
  split
  · have := parseTableDumps_noPanic subtype d
    split
    · next heq => rw [heq] at this; simpa using this
    · simp
    · simp
  · exact mapOk_noPanic (parseTableDumpV2_noPanic _ _)
  · exact mapOk_noPanic (parseBgp4Mp_noPanic _ _)
  · exact mapOk_noPanic (parseBgp4Mp_noPanic _ _)
  · exact mapOk_noPanic (parseLegacyBgp_noPanic _ _)
  · simp

theorem rawParse_noPanic (r : Raw) : r.parse ≠ .error .panic := mapOk_noPanic (parseMrtBody_noPanic _ _ _)

end Verif
