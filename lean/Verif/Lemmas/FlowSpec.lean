import Verif.Lemmas.Net
import Verif.Spec.FlowSpec
/-
Helper lemmas for FlowSpec.
-/
namespace Verif
open Spec

/-! ### values -/

theorem length_writeValue (v : UInt64) (n : Nat) : (writeValue v n).length = n := by
  induction n with
  | zero => rfl
  | succ n ih => simp [writeValue, ih]

/-- Nat value of a big-endian byte string. -/
def natOf (bs : Bytes) (acc : Nat) : Nat := bs.foldl (fun v b => v * 256 + b.toNat) acc

theorem natOf_lt (bs : Bytes) (acc : Nat) : natOf bs acc < (acc + 1) * 256 ^ bs.length := by
  induction bs generalizing acc with
  | nil => simp [natOf]
  | cons b bs ih =>
    have := ih (acc * 256 + b.toNat)
    have hb := b.toNat_lt
    simp only [natOf, List.foldl_cons, List.length_cons] at this ⊢
    calc _ < _ := this
      _ ≤ ((acc + 1) * 256) * 256 ^ bs.length := Nat.mul_le_mul_right _ (by omega)
      _ = _ := by rw [Nat.pow_succ, Nat.mul_assoc, Nat.mul_comm 256]

theorem readValue_nat (bs : Bytes) (h : bs.length ≤ 8) : (readValue bs).toNat = natOf bs 0 := by
  have H : ∀ (bs : Bytes) (acc : UInt64), (acc.toNat + 1) * 256 ^ bs.length ≤ 2 ^ 64 →
      (bs.foldl (fun v b => UInt64.ofNat (v.toNat * 256 + b.toNat)) acc).toNat = natOf bs acc.toNat := by
    intro bs
    induction bs with
    | nil => intro acc _; rfl
    | cons b bs ih =>
      intro acc hacc
      have hb := b.toNat_lt
      have h1 : ((acc.toNat * 256 + b.toNat) + 1) * 256 ^ bs.length ≤ 2 ^ 64 := by
        refine Nat.le_trans ?_ hacc
        rw [List.length_cons, Nat.pow_succ, Nat.mul_comm (256 ^ bs.length), ← Nat.mul_assoc]
        exact Nat.mul_le_mul_right _ (by omega)
      have hp : 1 ≤ 256 ^ bs.length := Nat.one_le_pow _ _ (by decide)
      have h2 : acc.toNat * 256 + b.toNat < 2 ^ 64 := by
        have := Nat.mul_le_mul_left ((acc.toNat * 256 + b.toNat) + 1) hp
        omega
      have e : (UInt64.ofNat (acc.toNat * 256 + b.toNat)).toNat = acc.toNat * 256 + b.toNat := by
        simp only [UInt64.toNat_ofNat']; exact Nat.mod_eq_of_lt h2
      simp only [List.foldl_cons, natOf]
      rw [ih _ (by rw [e]; exact h1), e]
      rfl
  have := H bs 0 (by
    simp only [UInt64.toNat_zero, Nat.zero_add, Nat.one_mul]
    calc 256 ^ bs.length ≤ 256 ^ 8 := Nat.pow_le_pow_right (by decide) h
      _ = 2 ^ 64 := by decide)
  exact this

theorem natOf_writeValue (v : UInt64) (n : Nat) (acc : Nat) :
    natOf (writeValue v n) acc = acc * 256 ^ n + v.toNat % 256 ^ n := by
  induction n generalizing acc with
  | zero => simp [writeValue, natOf, Nat.mod_one]
  | succ n ih =>
    have := ih (acc * 256 + (UInt8.ofNat (v.toNat / 256 ^ n)).toNat)
    simp only [natOf, writeValue, List.foldl_cons] at this ⊢
    rw [this]
    have h1 : (UInt8.ofNat (v.toNat / 256 ^ n)).toNat = v.toNat / 256 ^ n % 256 := by simp
    rw [h1, Nat.pow_succ]
    have h2 : v.toNat % (256 ^ n * 256) = v.toNat % 256 ^ n + 256 ^ n * (v.toNat / 256 ^ n % 256) := Nat.mod_mul
    rw [h2, Nat.add_mul, Nat.mul_comm (256 ^ n) 256, ← Nat.mul_assoc, Nat.mul_comm (256 ^ n) (_ % 256)]
    omega

theorem readValue_write {v : UInt64} {n : Nat} (h8 : n ≤ 8) (h : v.toNat < 256 ^ n) : readValue (writeValue v n) = v := by
  apply UInt64.toNat_inj.mp
  rw [readValue_nat _ (by rw [length_writeValue]; exact h8), natOf_writeValue]
  simp [Nat.mod_eq_of_lt h]

theorem natOf_acc (bs : Bytes) (acc : Nat) : natOf bs acc = acc * 256 ^ bs.length + natOf bs 0 := by
  induction bs generalizing acc with
  | nil => simp [natOf]
  | cons b bs ih =>
    have h1 := ih (acc * 256 + b.toNat)
    have h2 := ih b.toNat
    simp only [natOf, List.foldl_cons, Nat.zero_mul, Nat.zero_add, List.length_cons] at h1 h2 ⊢
    rw [h1, h2, Nat.add_mul, Nat.pow_succ, Nat.mul_assoc, Nat.mul_comm 256]
    omega

theorem write_natOf (bs : Bytes) (v : UInt64) (h : v.toNat % 256 ^ bs.length = natOf bs 0) : writeValue v bs.length = bs := by
  induction bs with
  | nil => rfl
  | cons b bs ih =>
    have h2 := natOf_acc bs b.toNat
    have hlt := natOf_lt bs 0
    have hb := b.toNat_lt
    simp only [Nat.zero_add, Nat.one_mul] at hlt
    have hc : natOf (b :: bs) 0 = b.toNat * 256 ^ bs.length + natOf bs 0 := by
      rw [← h2]; simp [natOf]
    rw [hc, List.length_cons, Nat.pow_succ, Nat.mod_mul] at h
    have hpos : 0 < 256 ^ bs.length := Nat.pow_pos (by decide)
    have hm : v.toNat % 256 ^ bs.length = natOf bs 0 := by
      have := congrArg (· % 256 ^ bs.length) h
      simp only [Nat.add_mul_mod_self_left, Nat.mod_mod] at this
      rw [Nat.mul_comm, Nat.mul_add_mod, Nat.mod_eq_of_lt hlt] at this
      exact this
    have hd : v.toNat / 256 ^ bs.length % 256 = b.toNat := by
      rw [hm, Nat.mul_comm b.toNat] at h
      have : 256 ^ bs.length * (v.toNat / 256 ^ bs.length % 256) = 256 ^ bs.length * b.toNat := by omega
      exact Nat.eq_of_mul_eq_mul_left hpos this
    simp only [List.length_cons, writeValue]
    rw [ih hm]
    congr 1
    apply UInt8.toNat_inj.mp
    simp [hd]

theorem write_readValue {bs : Bytes} (h8 : bs.length ≤ 8) : writeValue (readValue bs) bs.length = bs := by
  apply write_natOf
  rw [readValue_nat _ h8]
  have := natOf_lt bs 0
  exact Nat.mod_eq_of_lt (by simpa using this)

theorem readValue_lt {bs : Bytes} (h8 : bs.length ≤ 8) : (readValue bs).toNat < 256 ^ bs.length := by
  rw [readValue_nat _ h8]
  simpa using natOf_lt bs 0

/-! ### operator bytes -/

theorem opValueLen_fin : ∀ n : Fin 256, opValueLen (UInt8.ofNat n) = 1 ∨ opValueLen (UInt8.ofNat n) = 2 ∨
    opValueLen (UInt8.ofNat n) = 4 ∨ opValueLen (UInt8.ofNat n) = 8 := by decide +kernel

theorem opValueLen_cases (b : UInt8) : opValueLen b = 1 ∨ opValueLen b = 2 ∨ opValueLen b = 4 ∨ opValueLen b = 8 := by
  simpa using opValueLen_fin ⟨b.toNat, b.toNat_lt⟩

theorem opValueLen_le (b : UInt8) : (opValueLen b).toNat ≤ 8 := by
  rcases opValueLen_cases b with h | h | h | h <;> rw [h] <;> decide

theorem opValueLen_pos (b : UInt8) : 0 < (opValueLen b).toNat := by
  rcases opValueLen_cases b with h | h | h | h <;> rw [h] <;> decide

theorem numOp_byte_fin : ∀ a b c d e : Bool, ∀ l : Fin 4,
    let o : NumOp := ⟨a, b, [1, 2, 4, 8].getD l.val 0, c, d, e, 0⟩
    o.toByte &&& 0x08 = 0 ∧ opValueLen o.toByte = o.valueLen ∧ (o.toByte &&& 0x80 != 0) = a ∧ (o.toByte &&& 0x40 != 0) = b ∧
    (o.toByte &&& 0x04 != 0) = c ∧ (o.toByte &&& 0x02 != 0) = d ∧ (o.toByte &&& 0x01 != 0) = e := by decide +kernel

theorem bitOp_byte_fin : ∀ a b c d : Bool, ∀ l : Fin 4,
    let o : BitOp := ⟨a, b, [1, 2, 4, 8].getD l.val 0, c, d, 0⟩
    o.toByte &&& 0x0C = 0 ∧ opValueLen o.toByte = o.valueLen ∧ (o.toByte &&& 0x80 != 0) = a ∧ (o.toByte &&& 0x40 != 0) = b ∧
    (o.toByte &&& 0x02 != 0) = c ∧ (o.toByte &&& 0x01 != 0) = d := by decide +kernel

theorem width_fin {l : UInt8} (h : l = 1 ∨ l = 2 ∨ l = 4 ∨ l = 8) : ∃ i : Fin 4, l = [1, 2, 4, 8].getD i.val 0 := by
  rcases h with rfl | rfl | rfl | rfl
  · exact ⟨0, rfl⟩
  · exact ⟨1, rfl⟩
  · exact ⟨2, rfl⟩
  · exact ⟨3, rfl⟩

theorem numOp_ofByte {o : NumOp} (h : WidthOk o.valueLen o.value) :
    opValueLen o.toByte = o.valueLen ∧ NumOp.ofByte o.toByte o.value = .ok o := by
  obtain ⟨a, b, l, c, d, e, v⟩ := o
  obtain ⟨i, rfl⟩ := width_fin h.1
  have := numOp_byte_fin a b c d e i
  simp only at this
  have e0 : (NumOp.mk a b ([1, 2, 4, 8].getD i.val 0) c d e v).toByte = (NumOp.mk a b ([1, 2, 4, 8].getD i.val 0) c d e 0).toByte := rfl
  rw [e0]
  obtain ⟨h1, h2, h3, h4, h5, h6, h7⟩ := this
  refine ⟨h2, ?_⟩
  unfold NumOp.ofByte
  rw [if_neg (fun hn => hn h1), h2, h3, h4, h5, h6, h7]

theorem bitOp_ofByte {o : BitOp} (h : WidthOk o.valueLen o.bitmask) :
    opValueLen o.toByte = o.valueLen ∧ BitOp.ofByte o.toByte o.bitmask = .ok o := by
  obtain ⟨a, b, l, c, d, v⟩ := o
  obtain ⟨i, rfl⟩ := width_fin h.1
  have := bitOp_byte_fin a b c d i
  simp only at this
  have e0 : (BitOp.mk a b ([1, 2, 4, 8].getD i.val 0) c d v).toByte = (BitOp.mk a b ([1, 2, 4, 8].getD i.val 0) c d 0).toByte := rfl
  rw [e0]
  obtain ⟨h1, h2, h3, h4, h5, h6⟩ := this
  refine ⟨h2, ?_⟩
  unfold BitOp.ofByte
  rw [if_neg (fun hn => hn h1), h2, h3, h4, h5, h6]

theorem numOp_toByte_fin : ∀ n : Fin 256, UInt8.ofNat n &&& 0x08 = 0 →
    (NumOp.mk (UInt8.ofNat n &&& 0x80 != 0) (UInt8.ofNat n &&& 0x40 != 0) (opValueLen (UInt8.ofNat n))
      (UInt8.ofNat n &&& 0x04 != 0) (UInt8.ofNat n &&& 0x02 != 0) (UInt8.ofNat n &&& 0x01 != 0) 0).toByte = UInt8.ofNat n := by
  decide +kernel

theorem bitOp_toByte_fin : ∀ n : Fin 256, UInt8.ofNat n &&& 0x0C = 0 →
    (BitOp.mk (UInt8.ofNat n &&& 0x80 != 0) (UInt8.ofNat n &&& 0x40 != 0) (opValueLen (UInt8.ofNat n))
      (UInt8.ofNat n &&& 0x02 != 0) (UInt8.ofNat n &&& 0x01 != 0) 0).toByte = UInt8.ofNat n := by
  decide +kernel

theorem numOp_ofByte_sound {b : UInt8} {v : UInt64} {o : NumOp} (h : NumOp.ofByte b v = .ok o) :
    o.toByte = b ∧ o.valueLen = opValueLen b ∧ o.value = v := by
  unfold NumOp.ofByte at h
  split at h
  · cases h
  · rename_i hb
    cases h
    have := numOp_toByte_fin ⟨b.toNat, b.toNat_lt⟩
    simp only [UInt8.ofNat_toNat] at this
    exact ⟨this (by simpa using hb), rfl, rfl⟩

theorem bitOp_ofByte_sound {b : UInt8} {v : UInt64} {o : BitOp} (h : BitOp.ofByte b v = .ok o) :
    o.toByte = b ∧ o.valueLen = opValueLen b ∧ o.bitmask = v := by
  unfold BitOp.ofByte at h
  split at h
  · cases h
  · rename_i hb
    cases h
    have := bitOp_toByte_fin ⟨b.toNat, b.toNat_lt⟩
    simp only [UInt8.ofNat_toNat] at this
    exact ⟨this (by simpa using hb), rfl, rfl⟩

/-! ### one operator -/

theorem fsReadOp_enc {b : UInt8} {v : UInt64} (h : v.toNat < 256 ^ (opValueLen b).toNat) (s : Bytes) :
    fsReadOp (b :: writeValue v (opValueLen b).toNat ++ s) = .ok ((b, v), s) := by
  have hl := length_writeValue v (opValueLen b).toNat
  simp only [fsReadOp, List.cons_append]
  rw [if_neg (by simp [hl])]
  rw [show (opValueLen b).toNat = (writeValue v (opValueLen b).toNat).length from hl.symm]
  simp only [hl]
  rw [List.take_left' hl, List.drop_left' hl, readValue_write (opValueLen_le b) h]

theorem fsReadOp_sound {s r : Bytes} {b : UInt8} {v : UInt64} (h : fsReadOp s = .ok ((b, v), r)) :
    s = b :: writeValue v (opValueLen b).toNat ++ r ∧ v.toNat < 256 ^ (opValueLen b).toNat := by
  cases s with
  | nil => cases h
  | cons b' t =>
    simp only [fsReadOp] at h
    split at h
    · cases h
    · rename_i hl
      cases h
      have h8 := opValueLen_le b
      have hl' : (t.take (opValueLen b).toNat).length = (opValueLen b).toNat := by simp; omega
      have h1 := write_readValue (bs := t.take (opValueLen b).toNat) (by omega)
      have h2 := readValue_lt (bs := t.take (opValueLen b).toNat) (by omega)
      rw [hl'] at h1 h2
      exact ⟨by rw [h1]; simp, h2⟩

theorem fsReadOp_noPanic (s : Bytes) : fsReadOp s ≠ .error .panic := by
  cases s with
  | nil => simp [fsReadOp]
  | cons b t => simp only [fsReadOp]; split <;> simp

theorem width_ok_of {b : UInt8} {v : UInt64} (h : v.toNat < 256 ^ (opValueLen b).toNat) : WidthOk (opValueLen b) v :=
  ⟨opValueLen_cases b, h⟩

theorem fsWriteValue_ok {l : UInt8} {v : UInt64} (h : WidthOk l v) : fsWriteValue v l = .ok (writeValue v l.toNat) := by
  unfold fsWriteValue
  rw [if_neg]
  rcases h.1 with h | h | h | h <;> rw [h] <;> decide

/-! ### operator lists -/

theorem fsEncNumOps_ok : ∀ (os : List NumOp), (∀ o ∈ os, WidthOk o.valueLen o.value) →
    ∃ b, fsEncNumOps os = .ok b ∧ b = os.flatMap fun o => o.toByte :: writeValue o.value o.valueLen.toNat
  | [], _ => ⟨[], rfl, rfl⟩
  | o :: os, h => by
    obtain ⟨b, h1, h2⟩ := fsEncNumOps_ok os fun o ho => h o (by simp [ho])
    refine ⟨_, ?_, rfl⟩
    simp only [fsEncNumOps, fsWriteValue_ok (h o (by simp)), h1, h2, List.flatMap_cons]

theorem fsEncBitOps_ok : ∀ (os : List BitOp), (∀ o ∈ os, WidthOk o.valueLen o.bitmask) →
    ∃ b, fsEncBitOps os = .ok b ∧ b = os.flatMap fun o => o.toByte :: writeValue o.bitmask o.valueLen.toNat
  | [], _ => ⟨[], rfl, rfl⟩
  | o :: os, h => by
    obtain ⟨b, h1, h2⟩ := fsEncBitOps_ok os fun o ho => h o (by simp [ho])
    refine ⟨_, ?_, rfl⟩
    simp only [fsEncBitOps, fsWriteValue_ok (h o (by simp)), h1, h2, List.flatMap_cons]

theorem fsNumOps_enc : ∀ (os : List NumOp) (fuel : Nat) (s : Bytes), EndMarked NumOp.eol os →
    (∀ o ∈ os, WidthOk o.valueLen o.value) → os.length ≤ fuel →
    fsNumOps fuel ((os.flatMap fun o => o.toByte :: writeValue o.value o.valueLen.toNat) ++ s) = .ok (os, s) := by
  intro os
  induction os with
  | nil => intro _ _ h; exact absurd h (by simp [EndMarked])
  | cons o os ih =>
    intro fuel s he hw hf
    cases fuel with
    | zero => simp at hf
    | succ fuel =>
      obtain ⟨hl, ho⟩ := numOp_ofByte (hw o (by simp))
      have hv : o.value.toNat < 256 ^ (opValueLen o.toByte).toNat := by rw [hl]; exact (hw o (by simp)).2
      have hr := fsReadOp_enc hv ((os.flatMap fun o => o.toByte :: writeValue o.value o.valueLen.toNat) ++ s)
      rw [hl] at hr
      simp only [List.flatMap_cons, List.append_assoc, List.cons_append] at hr ⊢
      simp only [fsNumOps, hr, ho]
      cases os with
      | nil =>
        simp only [EndMarked] at he
        simp [he]
      | cons o' os' =>
        simp only [EndMarked] at he
        rw [if_neg (by simp [he.1]), ih fuel s he.2 (fun x hx => hw x (by simp [hx])) (by simp at hf ⊢; omega)]

theorem fsBitOps_enc : ∀ (os : List BitOp) (fuel : Nat) (s : Bytes), EndMarked BitOp.eol os →
    (∀ o ∈ os, WidthOk o.valueLen o.bitmask) → os.length ≤ fuel →
    fsBitOps fuel ((os.flatMap fun o => o.toByte :: writeValue o.bitmask o.valueLen.toNat) ++ s) = .ok (os, s) := by
  intro os
  induction os with
  | nil => intro _ _ h; exact absurd h (by simp [EndMarked])
  | cons o os ih =>
    intro fuel s he hw hf
    cases fuel with
    | zero => simp at hf
    | succ fuel =>
      obtain ⟨hl, ho⟩ := bitOp_ofByte (hw o (by simp))
      have hv : o.bitmask.toNat < 256 ^ (opValueLen o.toByte).toNat := by rw [hl]; exact (hw o (by simp)).2
      have hr := fsReadOp_enc hv ((os.flatMap fun o => o.toByte :: writeValue o.bitmask o.valueLen.toNat) ++ s)
      rw [hl] at hr
      simp only [List.flatMap_cons, List.append_assoc, List.cons_append] at hr ⊢
      simp only [fsBitOps, hr, ho]
      cases os with
      | nil =>
        simp only [EndMarked] at he
        simp [he]
      | cons o' os' =>
        simp only [EndMarked] at he
        rw [if_neg (by simp [he.1]), ih fuel s he.2 (fun x hx => hw x (by simp [hx])) (by simp at hf ⊢; omega)]

theorem fsNumOps_sound : ∀ (fuel : Nat) (s r : Bytes) (os : List NumOp), fsNumOps fuel s = .ok (os, r) →
    EndMarked NumOp.eol os ∧ (∀ o ∈ os, WidthOk o.valueLen o.value) ∧
    s = (os.flatMap fun o => o.toByte :: writeValue o.value o.valueLen.toNat) ++ r := by
  intro fuel
  induction fuel with
  | zero => intro s r os h; simp only [fsNumOps] at h; split at h <;> cases h
  | succ fuel ih =>
    intro s r os h
    simp only [fsNumOps] at h
    cases h1 : fsReadOp s with
    | error e => rw [h1] at h; cases h
    | ok x =>
      obtain ⟨⟨b, v⟩, t⟩ := x
      rw [h1] at h
      simp only at h
      obtain ⟨hs, hv⟩ := fsReadOp_sound h1
      cases h2 : NumOp.ofByte b v with
      | error e => rw [h2] at h; cases h
      | ok o =>
        rw [h2] at h
        simp only at h
        obtain ⟨e1, e2, e3⟩ := numOp_ofByte_sound h2
        have hw : WidthOk o.valueLen o.value := by rw [e2, e3]; exact width_ok_of hv
        rw [← e3, ← e2, ← e1] at hs
        by_cases he : o.eol
        · rw [if_pos he] at h
          cases h
          exact ⟨he, by simpa using hw, by simpa using hs⟩
        · rw [if_neg he] at h
          cases h3 : fsNumOps fuel t with
          | error e => rw [h3] at h; cases h
          | ok y =>
            obtain ⟨os', r'⟩ := y
            rw [h3] at h
            cases h
            obtain ⟨i1, i2, i3⟩ := ih _ _ _ h3
            refine ⟨?_, ?_, ?_⟩
            · cases os' with
              | nil => exact absurd i1 (by simp [EndMarked])
              | cons o' os'' => exact ⟨by simpa using he, i1⟩
            · intro x hx
              rcases List.mem_cons.mp hx with rfl | hx
              · exact hw
              · exact i2 x hx
            · rw [hs, i3]; simp

theorem fsBitOps_sound : ∀ (fuel : Nat) (s r : Bytes) (os : List BitOp), fsBitOps fuel s = .ok (os, r) →
    EndMarked BitOp.eol os ∧ (∀ o ∈ os, WidthOk o.valueLen o.bitmask) ∧
    s = (os.flatMap fun o => o.toByte :: writeValue o.bitmask o.valueLen.toNat) ++ r := by
  intro fuel
  induction fuel with
  | zero => intro s r os h; simp only [fsBitOps] at h; split at h <;> cases h
  | succ fuel ih =>
    intro s r os h
    simp only [fsBitOps] at h
    cases h1 : fsReadOp s with
    | error e => rw [h1] at h; cases h
    | ok x =>
      obtain ⟨⟨b, v⟩, t⟩ := x
      rw [h1] at h
      simp only at h
      obtain ⟨hs, hv⟩ := fsReadOp_sound h1
      cases h2 : BitOp.ofByte b v with
      | error e => rw [h2] at h; cases h
      | ok o =>
        rw [h2] at h
        simp only at h
        obtain ⟨e1, e2, e3⟩ := bitOp_ofByte_sound h2
        have hw : WidthOk o.valueLen o.bitmask := by rw [e2, e3]; exact width_ok_of hv
        rw [← e3, ← e2, ← e1] at hs
        by_cases he : o.eol
        · rw [if_pos he] at h
          cases h
          exact ⟨he, by simpa using hw, by simpa using hs⟩
        · rw [if_neg he] at h
          cases h3 : fsBitOps fuel t with
          | error e => rw [h3] at h; cases h
          | ok y =>
            obtain ⟨os', r'⟩ := y
            rw [h3] at h
            cases h
            obtain ⟨i1, i2, i3⟩ := ih _ _ _ h3
            refine ⟨?_, ?_, ?_⟩
            · cases os' with
              | nil => exact absurd i1 (by simp [EndMarked])
              | cons o' os'' => exact ⟨by simpa using he, i1⟩
            · intro x hx
              rcases List.mem_cons.mp hx with rfl | hx
              · exact hw
              · exact i2 x hx
            · rw [hs, i3]; simp

theorem fsNumOps_noPanic : ∀ (fuel : Nat) (s : Bytes), s.length ≤ fuel → fsNumOps fuel s ≠ .error .panic := by
  intro fuel
  induction fuel with
  | zero => intro s h; have : s = [] := List.eq_nil_of_length_eq_zero (by omega); simp [fsNumOps, this]
  | succ fuel ih =>
    intro s hf h
    simp only [fsNumOps] at h
    cases h1 : fsReadOp s with
    | error e => rw [h1] at h; cases h; exact fsReadOp_noPanic s h1
    | ok x =>
      obtain ⟨⟨b, v⟩, t⟩ := x
      rw [h1] at h
      simp only at h
      obtain ⟨hs, hv⟩ := fsReadOp_sound h1
      have hlen : t.length ≤ fuel := by rw [hs] at hf; simp at hf; omega
      cases h2 : NumOp.ofByte b v with
      | error e => rw [h2] at h; cases h; unfold NumOp.ofByte at h2; split at h2 <;> cases h2
      | ok o =>
        rw [h2] at h
        simp only at h
        by_cases he : o.eol
        · rw [if_pos he] at h; cases h
        · rw [if_neg he] at h
          cases h3 : fsNumOps fuel t with
          | error e => rw [h3] at h; cases h; exact ih t hlen h3
          | ok y => rw [h3] at h; cases h

theorem fsBitOps_noPanic : ∀ (fuel : Nat) (s : Bytes), s.length ≤ fuel → fsBitOps fuel s ≠ .error .panic := by
  intro fuel
  induction fuel with
  | zero => intro s h; have : s = [] := List.eq_nil_of_length_eq_zero (by omega); simp [fsBitOps, this]
  | succ fuel ih =>
    intro s hf h
    simp only [fsBitOps] at h
    cases h1 : fsReadOp s with
    | error e => rw [h1] at h; cases h; exact fsReadOp_noPanic s h1
    | ok x =>
      obtain ⟨⟨b, v⟩, t⟩ := x
      rw [h1] at h
      simp only at h
      obtain ⟨hs, hv⟩ := fsReadOp_sound h1
      have hlen : t.length ≤ fuel := by rw [hs] at hf; simp at hf; omega
      cases h2 : BitOp.ofByte b v with
      | error e => rw [h2] at h; cases h; unfold BitOp.ofByte at h2; split at h2 <;> cases h2
      | ok o =>
        rw [h2] at h
        simp only at h
        by_cases he : o.eol
        · rw [if_pos he] at h; cases h
        · rw [if_neg he] at h
          cases h3 : fsBitOps fuel t with
          | error e => rw [h3] at h; cases h; exact ih t hlen h3
          | ok y => rw [h3] at h; cases h

/-! ### prefixes -/

theorem fsPrefix_enc {p : NetworkPrefix} (h : FsPrefixOk p) (s : Bytes) : fsParsePrefix (fsEncPrefix p ++ s) = .ok (p, s) := by
  obtain ⟨⟨a, len⟩, pid⟩ := p
  obtain ⟨h1, h2, h3⟩ := h
  simp only at h1 h2 h3
  subst h1
  cases a with
  | v4 o =>
    simp only at h3
    have hb : byteLen len ≤ 4 := byteLen_le_of h3
    have hpad : padVec 4 (o.toList.take (byteLen len)) = o := padVec_take o hb (by
      intro i hi hl
      exact h2 i (by unfold byteLen at hi; simp only; omega) hl)
    have hl : (o.toList.take (byteLen len)).length = byteLen len := by simp; omega
    simp only [fsParsePrefix, fsEncPrefix, Ip.octets, List.cons_append]
    rw [if_neg (by rw [gt_iff_lt, UInt8.lt_iff_toNat_lt]; simp; omega), if_neg (by simp; omega)]
    rw [if_pos hb, List.take_left' hl, List.drop_left' hl, hpad]
    simp [IpNet.new?, Ip.maxLen, h3]
  | v6 o =>
    simp only at h3
    have hb : byteLen len ≤ 16 := byteLen_le_of h3.2
    have hb' : ¬ byteLen len ≤ 4 := by unfold byteLen; omega
    have hpad : padVec 16 (o.toList.take (byteLen len)) = o := padVec_take o hb (by
      intro i hi hl
      exact h2 i (by unfold byteLen at hi; simp only; omega) hl)
    have hl : (o.toList.take (byteLen len)).length = byteLen len := by simp; omega
    simp only [fsParsePrefix, fsEncPrefix, Ip.octets, List.cons_append]
    rw [if_neg (by rw [gt_iff_lt, UInt8.lt_iff_toNat_lt]; simp; omega), if_neg (by simp; omega)]
    rw [if_neg hb', List.take_left' hl, List.drop_left' hl, hpad]
    simp [IpNet.new?, Ip.maxLen, h3.2]

theorem fsPrefix_sound {s r : Bytes} {p : NetworkPrefix} (h : fsParsePrefix s = .ok (p, r)) :
    FsPrefixOk p ∧ s = fsEncPrefix p ++ r := by
  cases s with
  | nil => cases h
  | cons len t =>
    simp only [fsParsePrefix] at h
    split at h
    · cases h
    split at h
    · cases h
    rename_i h1 h2
    have hl : (t.take (byteLen len)).length = byteLen len := by simp; omega
    have h128 : len.toNat ≤ 128 := by
      rw [gt_iff_lt, UInt8.lt_iff_toNat_lt] at h1; simp at h1; omega
    split at h
    · rename_i h4
      split at h
      · rename_i q hq
        cases h
        simp only [IpNet.new?] at hq
        split at hq
        · rename_i h32
          cases hq
          refine ⟨⟨rfl, ?_, by simpa [Ip.maxLen] using h32⟩, ?_⟩
          · intro i hi hh
            exact padVec_tailZero _ i (by rw [hl]; unfold byteLen; simp only at hi; omega) hh
          · simp only [fsEncPrefix, Ip.octets]
            have := padVec_toList_take (n := 4) (t.take (byteLen len)) (by omega)
            rw [hl] at this
            rw [this]; simp
        · cases hq
      · cases h
    · rename_i h4
      split at h
      · rename_i q hq
        cases h
        have hb : byteLen len ≤ 16 := byteLen_le_of h128
        simp only [IpNet.new?] at hq
        split at hq
        · rename_i h32
          cases hq
          refine ⟨⟨rfl, ?_, by unfold byteLen at h4; simp only; omega, h128⟩, ?_⟩
          · intro i hi hh
            exact padVec_tailZero _ i (by rw [hl]; unfold byteLen; simp only at hi; omega) hh
          · simp only [fsEncPrefix, Ip.octets]
            have := padVec_toList_take (n := 16) (t.take (byteLen len)) (by omega)
            rw [hl] at this
            rw [this]; simp
        · cases hq
      · cases h

theorem fsPrefix_noPanic (s : Bytes) : fsParsePrefix s ≠ .error .panic := by
  cases s with
  | nil => simp [fsParsePrefix]
  | cons len t =>
    simp only [fsParsePrefix]
    intro h
    split at h
    · cases h
    split at h
    · cases h
    split at h
    · split at h <;> cases h
    · split at h <;> cases h

/-! ### one component -/

theorem numKind_code (k : FsKindNum) : fsNumKind k.code = some k ∧ k.code ≠ 1 ∧ k.code ≠ 2 := by
  cases k <;> decide

theorem bitKind_code (k : FsKindBit) : fsNumKind k.code = none ∧ fsBitKind k.code = some k ∧ k.code ≠ 1 ∧ k.code ≠ 2 := by
  cases k <;> decide

theorem numKind_fin : ∀ n : Fin 256, ∀ k, fsNumKind (UInt8.ofNat n) = some k → k.code = UInt8.ofNat n := by
  intro n k
  have h : ∀ n : Fin 256, (fsNumKind (UInt8.ofNat n)).all (fun k => k.code == UInt8.ofNat n) = true := by
    decide +kernel
  intro hk
  have := h n
  rw [hk] at this
  simpa using this

theorem bitKind_fin : ∀ n : Fin 256, ∀ k, fsBitKind (UInt8.ofNat n) = some k → k.code = UInt8.ofNat n := by
  intro n k
  have h : ∀ n : Fin 256, (fsBitKind (UInt8.ofNat n)).all (fun k => k.code == UInt8.ofNat n) = true := by
    decide +kernel
  intro hk
  have := h n
  rw [hk] at this
  simpa using this

theorem numKind_sound {t : UInt8} {k : FsKindNum} (h : fsNumKind t = some k) : k.code = t := by
  have := numKind_fin ⟨t.toNat, t.toNat_lt⟩ k
  simp only [UInt8.ofNat_toNat] at this
  exact this h

theorem bitKind_sound {t : UInt8} {k : FsKindBit} (h : fsBitKind t = some k) : k.code = t := by
  have := bitKind_fin ⟨t.toNat, t.toNat_lt⟩ k
  simp only [UInt8.ofNat_toNat] at this
  exact this h

theorem flatMap_len (f : α → Bytes) (hf : ∀ a, 0 < (f a).length) (as : List α) : as.length ≤ (as.flatMap f).length := by
  induction as with
  | nil => simp
  | cons a as ih => have := hf a; rw [List.flatMap_cons, List.length_append, List.length_cons]; omega

theorem fsComp_enc {c : FsComp} (h : FsCompOk c) :
    ∃ b, fsEncComp c = .ok b ∧ ∀ s, fsParseComp c.code (b ++ s) = .ok (c, s) := by
  cases c with
  | dstPrefix p =>
    exact ⟨_, rfl, fun s => by show fsParseComp _ _ = _; unfold fsParseComp; simp only [FsComp.code]; rw [if_pos trivial, fsPrefix_enc h]⟩
  | srcPrefix p =>
    exact ⟨_, rfl, fun s => by show fsParseComp _ _ = _; unfold fsParseComp; simp only [FsComp.code]; rw [if_neg (by decide), if_pos trivial, fsPrefix_enc h]⟩
  | numeric k os =>
    obtain ⟨h1, h2⟩ := h
    obtain ⟨b, e1, e2⟩ := fsEncNumOps_ok os h2
    refine ⟨b, e1, fun s => ?_⟩
    obtain ⟨k1, k2, k3⟩ := numKind_code k
    show fsParseComp k.code (b ++ s) = _
    unfold fsParseComp
    rw [if_neg k2, if_neg k3]
    simp only [k1]
    have := fsNumOps_enc os (b ++ s).length s h1 h2 (by
      have := flatMap_len (fun o : NumOp => o.toByte :: writeValue o.value o.valueLen.toNat) (by simp) os
      rw [← e2] at this
      simp; omega)
    rw [← e2] at this
    rw [this]
  | bitmask k os =>
    obtain ⟨h1, h2⟩ := h
    obtain ⟨b, e1, e2⟩ := fsEncBitOps_ok os h2
    refine ⟨b, e1, fun s => ?_⟩
    obtain ⟨k1, k4, k2, k3⟩ := bitKind_code k
    show fsParseComp k.code (b ++ s) = _
    unfold fsParseComp
    rw [if_neg k2, if_neg k3]
    simp only [k1, k4]
    have := fsBitOps_enc os (b ++ s).length s h1 h2 (by
      have := flatMap_len (fun o : BitOp => o.toByte :: writeValue o.bitmask o.valueLen.toNat) (by simp) os
      rw [← e2] at this
      simp; omega)
    rw [← e2] at this
    rw [this]
  | dstPrefix6 o p => exact absurd h (by simp [FsCompOk])
  | srcPrefix6 o p => exact absurd h (by simp [FsCompOk])

theorem fsComp_sound {t : UInt8} {s r : Bytes} {c : FsComp} (h : fsParseComp t s = .ok (c, r)) :
    c.code = t ∧ FsCompOk c ∧ ∃ b, fsEncComp c = .ok b ∧ s = b ++ r := by
  unfold fsParseComp at h
  split at h
  · rename_i ht
    cases h1 : fsParsePrefix s with
    | error e => rw [h1] at h; cases h
    | ok x =>
      obtain ⟨p, r'⟩ := x
      rw [h1] at h; cases h
      obtain ⟨e1, e2⟩ := fsPrefix_sound h1
      exact ⟨ht.symm, e1, _, rfl, e2⟩
  split at h
  · rename_i ht
    cases h1 : fsParsePrefix s with
    | error e => rw [h1] at h; cases h
    | ok x =>
      obtain ⟨p, r'⟩ := x
      rw [h1] at h; cases h
      obtain ⟨e1, e2⟩ := fsPrefix_sound h1
      exact ⟨ht.symm, e1, _, rfl, e2⟩
  split at h
  · rename_i k hk
    cases h1 : fsNumOps s.length s with
    | error e => rw [h1] at h; cases h
    | ok x =>
      obtain ⟨p, r'⟩ := x
      rw [h1] at h; cases h
      obtain ⟨e1, e2, e3⟩ := fsNumOps_sound _ _ _ _ h1
      obtain ⟨b, e4, e5⟩ := fsEncNumOps_ok p e2
      exact ⟨numKind_sound hk, ⟨e1, e2⟩, b, e4, by rw [e5]; exact e3⟩
  split at h
  · rename_i k hk
    cases h1 : fsBitOps s.length s with
    | error e => rw [h1] at h; cases h
    | ok x =>
      obtain ⟨p, r'⟩ := x
      rw [h1] at h; cases h
      obtain ⟨e1, e2, e3⟩ := fsBitOps_sound _ _ _ _ h1
      obtain ⟨b, e4, e5⟩ := fsEncBitOps_ok p e2
      exact ⟨bitKind_sound hk, ⟨e1, e2⟩, b, e4, by rw [e5]; exact e3⟩
  · cases h

theorem fsComp_noPanic (t : UInt8) (s : Bytes) : fsParseComp t s ≠ .error .panic := by
  intro h
  unfold fsParseComp at h
  split at h
  · cases h1 : fsParsePrefix s with
    | error e => rw [h1] at h; cases h; exact fsPrefix_noPanic s h1
    | ok x => rw [h1] at h; cases h
  split at h
  · cases h1 : fsParsePrefix s with
    | error e => rw [h1] at h; cases h; exact fsPrefix_noPanic s h1
    | ok x => rw [h1] at h; cases h
  split at h
  · cases h1 : fsNumOps s.length s with
    | error e => rw [h1] at h; cases h; exact fsNumOps_noPanic _ _ (Nat.le_refl _) h1
    | ok x => rw [h1] at h; cases h
  split at h
  · cases h1 : fsBitOps s.length s with
    | error e => rw [h1] at h; cases h; exact fsBitOps_noPanic _ _ (Nat.le_refl _) h1
    | ok x => rw [h1] at h; cases h
  · cases h

/-! ### component lists -/

theorem fsComps_enc : ∀ (cs : List FsComp), (∀ c ∈ cs, FsCompOk c) → FsOrdered cs →
    ∃ b, fsEncComps cs = .ok b ∧ ∀ (fuel : Nat) (last : UInt8) (s : Bytes), (∀ c ∈ cs, last < c.code) →
      cs.length ≤ fuel → fsComps s.length fuel last (b ++ s) = .ok (cs, s)
  | [], _, _ => ⟨[], rfl, fun fuel last s _ _ => by unfold fsComps; simp⟩
  | c :: cs, h, ho => by
    obtain ⟨b, h1, h2⟩ := fsComp_enc (h c (by simp))
    rw [FsOrdered, List.pairwise_cons] at ho
    obtain ⟨b', h3, h4⟩ := fsComps_enc cs (fun x hx => h x (by simp [hx])) ho.2
    refine ⟨c.code :: b ++ b', by simp only [fsEncComps, h1, h3], ?_⟩
    intro fuel last s hlast hf
    unfold fsComps
    rw [if_neg (by simp; omega)]
    cases fuel with
    | zero => simp at hf
    | succ fuel =>
      simp only [List.cons_append, List.append_assoc]
      have hl := hlast c (by simp)
      rw [if_neg (by rw [UInt8.not_le]; exact hl), h2 (b' ++ s)]
      simp only
      rw [h4 fuel c.code s ho.1 (by simp at hf; omega)]

theorem fsComps_sound (surplus : Nat) : ∀ (fuel : Nat) (last : UInt8) (s r : Bytes) (cs : List FsComp),
    fsComps surplus fuel last s = .ok (cs, r) →
    (∀ c ∈ cs, FsCompOk c) ∧ FsOrdered cs ∧ (∀ c ∈ cs, last < c.code) ∧ r.length ≤ surplus ∧
    ∃ b, fsEncComps cs = .ok b ∧ s = b ++ r := by
  intro fuel
  induction fuel with
  | zero =>
    intro last s r cs h
    unfold fsComps at h
    split at h
    · cases h; exact ⟨by simp, .nil, by simp, by assumption, [], rfl, rfl⟩
    · cases s with
      | nil => rename_i hs; simp at hs
      | cons a b => cases h
  | succ fuel ih =>
    intro last s r cs h
    unfold fsComps at h
    split at h
    · cases h; exact ⟨by simp, .nil, by simp, by assumption, [], rfl, rfl⟩
    · cases s with
      | nil => rename_i hs; simp at hs
      | cons t r0 =>
        simp only at h
        split at h
        · cases h
        · rename_i hle
          cases h1 : fsParseComp t r0 with
          | error e => rw [h1] at h; cases h
          | ok x =>
            obtain ⟨c, r'⟩ := x
            rw [h1] at h
            simp only at h
            cases h2 : fsComps surplus fuel t r' with
            | error e => rw [h2] at h; cases h
            | ok y =>
              obtain ⟨cs', r''⟩ := y
              rw [h2] at h
              cases h
              obtain ⟨hc, hok, b, hb, hs⟩ := fsComp_sound h1
              obtain ⟨i1, i2, i3, i4, b', hb', hs'⟩ := ih _ _ _ _ h2
              have hlt : last < t := by rw [UInt8.not_le] at hle; exact hle
              refine ⟨?_, ?_, ?_, i4, c.code :: b ++ b', ?_, ?_⟩
              · intro x hx
                rcases List.mem_cons.mp hx with rfl | hx
                · exact hok
                · exact i1 x hx
              · refine List.pairwise_cons.mpr ⟨fun x hx => ?_, i2⟩
                rw [hc]; exact i3 x hx
              · intro x hx
                rcases List.mem_cons.mp hx with rfl | hx
                · rw [hc]; exact hlt
                · exact UInt8.lt_trans hlt (i3 x hx)
              · simp only [fsEncComps, hb, hb']
              · rw [hs, hs', hc]; simp

theorem fsComps_noPanic (surplus : Nat) : ∀ (fuel : Nat) (last : UInt8) (s : Bytes), s.length ≤ fuel →
    fsComps surplus fuel last s ≠ .error .panic := by
  intro fuel
  induction fuel with
  | zero =>
    intro last s hf h
    have : s = [] := List.eq_nil_of_length_eq_zero (by omega)
    subst this
    simp [fsComps] at h
  | succ fuel ih =>
    intro last s hf h
    unfold fsComps at h
    split at h
    · cases h
    · cases s with
      | nil => cases h
      | cons t r0 =>
        simp only at h
        split at h
        · cases h
        · cases h1 : fsParseComp t r0 with
          | error e => rw [h1] at h; cases h; exact fsComp_noPanic _ _ h1
          | ok x =>
            obtain ⟨c, r'⟩ := x
            rw [h1] at h
            simp only at h
            obtain ⟨hc, hok, b, hb, hs⟩ := fsComp_sound h1
            cases h2 : fsComps surplus fuel t r' with
            | error e =>
              rw [h2] at h; cases h
              exact ih t r' (by rw [hs] at hf; simp at hf; omega) h2
            | ok y => rw [h2] at h; cases h

/-! ### length field -/

theorem fsLen_fin : ∀ hi : Fin 16, ((0xF0 : UInt8) ||| UInt8.ofNat hi) &&& 0x0F = UInt8.ofNat hi ∧ ¬ ((0xF0 : UInt8) ||| UInt8.ofNat hi) < 240 := by
  decide +kernel

theorem fsLen_enc {n : Nat} (h : n ≤ 0x0FFF) (s : Bytes) :
    fsParseLength (fsEncodeLength (UInt16.ofNat n) ++ s) = .ok (UInt16.ofNat n, s) := by
  have hn : (UInt16.ofNat n).toNat = n := by simp; omega
  unfold fsEncodeLength
  by_cases h1 : UInt16.ofNat n < 240
  · rw [if_pos h1]
    have h1' : n < 240 := by rw [UInt16.lt_iff_toNat_lt, hn] at h1; exact h1
    simp only [List.cons_append, List.nil_append, fsParseLength]
    rw [if_pos (by rw [UInt8.lt_iff_toNat_lt]; simp; omega)]
    congr 2
    apply UInt16.toNat_inj.mp
    simp; omega
  · rw [if_neg h1]
    have hh : (UInt16.ofNat n >>> 8).toUInt8 = UInt8.ofNat (n / 256) := by
      apply UInt8.toNat_inj.mp
      rw [UInt16.toNat_toUInt8, UInt16.toNat_shiftRight, hn]
      simp [Nat.shiftRight_eq_div_pow]
    obtain ⟨f1, f2⟩ := fsLen_fin ⟨n / 256, by omega⟩
    simp only [List.cons_append, List.nil_append, fsParseLength]
    rw [hh, if_neg f2, f1]
    simp only
    congr 2
    apply UInt16.toNat_inj.mp
    rw [UInt16.toNat_or, hn]
    have e1 : ((UInt8.ofNat (n / 256)).toUInt16 <<< 8).toNat = (n / 256) <<< 8 := by
      simp [Nat.shiftLeft_eq]; omega
    have e2 : (UInt16.ofNat n).toUInt8.toUInt16.toNat = n % 256 := by simp
    rw [e1, e2, ← Nat.shiftLeft_add_eq_or_of_lt (by omega), Nat.shiftLeft_eq]
    omega

theorem fsParseLength_progress {s r : Bytes} {n : UInt16} (h : fsParseLength s = .ok (n, r)) :
    ∃ l, s = l ++ r ∧ (l.length = 1 ∨ l.length = 2) := by
  cases s with
  | nil => cases h
  | cons a t =>
    simp only [fsParseLength] at h
    split at h
    · cases h; exact ⟨[a], rfl, .inl rfl⟩
    · cases t with
      | nil => cases h
      | cons b t => cases h; exact ⟨[a, b], rfl, .inr rfl⟩

theorem fsParseLength_noPanic (s : Bytes) : fsParseLength s ≠ .error .panic := by
  cases s with
  | nil => simp [fsParseLength]
  | cons a t =>
    simp only [fsParseLength]
    split
    · simp
    · cases t <;> simp

end Verif
