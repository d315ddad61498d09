import Verif.Proofs.Hash
import Verif.Model.ShaWith
import Verif.Spec.ShaWith

/-! The code of src/sha2.rs with the compression function as a parameter: with the crate's own it is the crate's hash function,
and with any other it computes the FIPS 180-4 hash with that compression function (as Verif/Proofs/Sha2.lean). -/

namespace CryptoPure.Proofs.ShaWith
open CryptoPure.Model CryptoPure.Model.ShaWith
open CryptoPure.Model.Sha2 (Params Proc new process zeroRange HashFunction maxDigestSize)
open CryptoPure.Proofs.Sha2 (Matches zeroRange_eq toBE_extend set_take_succ flatMap_take_uniform)

/-- With `process` in place of `f` this is the crate's own code. -/
theorem code {w : Nat} (P : Params w) (iv : Oct w) (n bs : Nat) :
    ShaWith.implFunction P (process P) iv n bs = Model.Sha2.implFunction P iv n bs := rfl

section
variable {w : Nat} {P : Params w} {A : Spec.Sha2.Alg w} {f : Oct w → Bytes → Oct w}

/-! ### Buffering -/

/-- The processor `s`, started from `iv`, has absorbed exactly the bytes `msg`
(everything except the length counter). -/
def Absorbs (P : Params w) (f : Oct w → Bytes → Oct w) (iv : Oct w) (msg : Bytes) (s : Proc w) : Prop :=
  s.buffer.length = P.blockSize ∧ ∃ full tail, msg = full ++ tail ∧ full.length % P.blockSize = 0 ∧
    tail.length < P.blockSize ∧ s.offset = tail.length ∧ s.buffer.take tail.length = tail ∧
    s.state = (chunks P.blockSize full).foldl f iv

theorem absorbs_new (iv : Oct w) (hb : 0 < P.blockSize) : Absorbs P f iv [] (new P iv) := by
  refine ⟨by simp [new], [], [], rfl, by simp, by simpa using hb, rfl, rfl, rfl⟩

theorem absorbChunks_len (s : Proc w) (x : Bytes) : (absorbChunks f s x).len = s.len := by
  unfold absorbChunks
  generalize chunks s.buffer.length x = l
  induction l generalizing s with
  | nil => rfl
  | cons c cs ih =>
    rw [List.foldl_cons, ih]
    unfold absorbChunk; split <;> rfl

theorem absorbChunks_spec (hb : 0 < P.blockSize) (iv : Oct w) (x : Bytes) :
    ∀ (full : Bytes) (s : Proc w), s.buffer.length = P.blockSize → s.offset = 0 →
    full.length % P.blockSize = 0 → s.state = (chunks P.blockSize full).foldl f iv →
    Absorbs P f iv (full ++ x) (absorbChunks f s x) := by
  induction hk : x.length using Nat.strongRecOn generalizing x with
  | _ k ih =>
    intro full s h1 h2 h3 h4
    unfold absorbChunks
    rw [h1]
    by_cases hx : x = []
    · subst hx
      exact ⟨h1, full, [], rfl, h3, by simpa using hb, by simpa using h2, by simp, h4⟩
    · have hpos : 0 < x.length := List.length_pos_iff.mpr hx
      rcases Nat.lt_or_ge x.length P.blockSize with hlt | hge
      · rw [chunks_singleton hx (by omega)]
        simp only [List.foldl_cons, List.foldl_nil, absorbChunk]
        rw [if_pos (by omega)]
        refine ⟨?_, full, x, rfl, h3, hlt, rfl, ?_, h4⟩
        · simp only; rw [copyAt_length (by omega), h1]
        · simp [copyAt_zero]
      · rw [chunks_of_ne_nil hb hx, List.foldl_cons]
        have hl : (x.take P.blockSize).length = P.blockSize := by simp; omega
        have hs : absorbChunk f s (x.take P.blockSize) =
            { s with state := f s.state (x.take P.blockSize) } := by
          unfold absorbChunk; rw [if_neg (by omega)]
        rw [hs]
        have := ih (x.drop P.blockSize).length (by simp; omega) (x.drop P.blockSize) rfl
          (full ++ x.take P.blockSize) { s with state := f s.state (x.take P.blockSize) }
          h1 h2 (by rw [List.length_append, hl, Nat.add_mod_right]; exact h3) (by
            simp only
            rw [chunks_append hb h3, List.foldl_append, ← h4]
            rw [chunks_singleton (by intro e; rw [e] at hl; simp at hl; omega) (by omega)]
            rfl)
        rw [List.append_assoc, List.take_append_drop] at this
        unfold absorbChunks at this
        simp only [h1] at this
        exact this

/-- What `update` does when its length counter addition yields `len'`. -/
theorem update_spec (hb : 0 < P.blockSize) (m : Mode) (iv : Oct w) (msg x : Bytes) (s : Proc w)
    (hs : Absorbs P f iv msg s) (len' : U64) (hlen : addC m s.len (BitVec.ofNat 64 x.length) = some len') :
    ∃ s', update f m s x = some s' ∧ Absorbs P f iv (msg ++ x) s' ∧ s'.len = len' := by
  obtain ⟨h1, full, tail, rfl, h3, h4, h5, h6, h7⟩ := hs
  unfold update
  rw [hlen]
  simp only [Option.bind_eq_bind, Option.bind_some]
  by_cases ho : s.offset > 0
  · rw [if_pos ho]
    by_cases hsp : x.length < s.buffer.length - s.offset
    · rw [if_pos hsp]
      refine ⟨_, rfl, ⟨?_, full, tail ++ x, by simp, h3, ?_, ?_, ?_, h7⟩, rfl⟩
      · simp only; rw [copyAt_length (by omega), h1]
      · simp; omega
      · simp [h5]
      · simp only [copyAt, h5, h6]
        rw [List.take_append_of_le_length (by simp)]
        exact List.take_of_length_le (by simp)
    · rw [if_neg hsp]
      refine ⟨_, rfl, ?_, by rw [absorbChunks_len]⟩
      set sp := s.buffer.length - s.offset with hspd
      have htl : (x.take sp).length = sp := by simp; omega
      have hbuf : copyAt s.buffer s.offset (x.take sp) = tail ++ x.take sp := by
        simp only [copyAt, h5, h6, htl]
        rw [List.drop_of_length_le (by omega), List.append_nil]
      have hbl : (tail ++ x.take sp).length = P.blockSize := by
        rw [List.length_append, htl]; omega
      have := absorbChunks_spec hb iv (x.drop sp) (full ++ (tail ++ x.take sp))
        { state := f s.state (tail ++ x.take sp), buffer := tail ++ x.take sp, offset := 0,
          len := len' } hbl rfl (by rw [List.length_append, hbl, Nat.add_mod_right]; exact h3) (by
            simp only
            rw [chunks_append hb h3, List.foldl_append, ← h7,
              chunks_singleton (by intro e; rw [e] at hbl; simp at hbl; omega) (by omega)]
            rfl)
      rw [hbuf]
      have e : full ++ tail ++ x = full ++ (tail ++ x.take sp) ++ x.drop sp := by
        simp [List.append_assoc]
      rw [e]
      exact this
  · rw [if_neg ho]
    have ho : s.offset = 0 := by omega
    have htail : tail = [] := List.length_eq_zero_iff.mp (by omega)
    subst htail
    refine ⟨_, rfl, ?_, by rw [absorbChunks_len]⟩
    rw [List.append_nil]
    exact absorbChunks_spec hb iv x full { s with len := len' } h1 ho h3 h7

/-! ### Padding -/

/-- Finishing the hash when the bit-length multiplication yields `bits`. -/
theorem procWriteDigest_spec (M : Matches P A) (m : Mode) (iv : Oct w) (msg : Bytes) (s : Proc w)
    (hs : Absorbs P f iv msg s) (bits : U64) (hbits : mulC m 8 s.len = some bits) (outLen : Nat)
    (hout : outLen % (w / 8) = 0) :
    procWriteDigest P f m s outLen = some (Spec.Sha2.digestWithF A f iv outLen msg bits.toNat) := by
  obtain ⟨h1, full, tail, rfl, h3, h4, h5, h6, h7⟩ := hs
  have hwb := M.wordBytes
  have hwp := M.wpos
  have hbk := M.block
  have habk := M.ablock
  have hal := M.alen
  have hb : 0 < P.blockSize := by omega
  have hblt : bits.toNat < 256 ^ 8 := by have := bits.isLt; simpa using this
  have hlenmod : (full ++ tail).length % A.blockBytes = tail.length := by
    rw [List.length_append, habk, ← hbk, Nat.add_mod, h3, Nat.zero_add, Nat.mod_mod,
      Nat.mod_eq_of_lt h4]
  -- the padded message
  have hfold : ∀ (l : Bytes), l.length % P.blockSize = 0 →
      Spec.Sha2.hashBlocksF A f iv l = (chunks P.blockSize l).foldl f iv := by
    intro l hl
    unfold Spec.Sha2.hashBlocksF
    rw [habk, ← hbk]
  set buf1 := s.buffer.set s.offset 0x80 with hbuf1
  have hb1l : buf1.length = P.blockSize := by simp [hbuf1, h1]
  have hb1t : buf1.take (tail.length + 1) = tail ++ [0x80] := by
    rw [hbuf1, h5, set_take_succ _ _ _ (by omega), h6]
  have hlf : toBE A.lenBytes bits.toNat = zeros (A.lenBytes - 8) ++ toBE 8 bits.toNat := by
    conv_lhs => rw [show A.lenBytes = (A.lenBytes - 8) + 8 by omega]
    exact toBE_extend _ _ _ hblt
  suffices hmain : ∃ s', pad P f m s = some s' ∧ f s'.state s'.buffer =
      Spec.Sha2.hashBlocksF A f iv (full ++ tail ++ Spec.Sha2.padding A (full ++ tail).length bits.toNat) by
    obtain ⟨s', e1, e2⟩ := hmain
    unfold procWriteDigest Spec.Sha2.digestWithF
    rw [e1]
    simp only [Option.bind_eq_bind, Option.bind_some, e2, hwb]
    rw [flatMap_take_uniform _ (w / 8) (by simp)]
    rw [show outLen / (w / 8) * (w / 8) = outLen by
      rw [Nat.div_mul_cancel (Nat.dvd_of_mod_eq_zero hout)]]
  unfold pad
  rw [hbits, show (decide (s.offset < s.buffer.length)) = true by simp; omega]
  simp only [assert_true, Option.bind_eq_bind, Option.bind_some, ← hbuf1]
  unfold Spec.Sha2.padding
  rw [hlenmod, hlf]
  by_cases hc : s.offset + 1 > P.blockSize - 2 * P.wordBytes
  · rw [if_pos hc]
    refine ⟨_, rfl, ?_⟩
    simp only
    rw [zeroRange_eq buf1 (s.offset + 1) buf1.length (by omega) (le_refl _), h5, hb1t, hb1l]
    set B1 := tail ++ [0x80] ++ zeros (P.blockSize - (tail.length + 1)) ++ List.drop P.blockSize buf1 with hB1
    have hd : List.drop P.blockSize buf1 = [] := List.drop_of_length_le (by omega)
    have hB1l : B1.length = P.blockSize := by simp [hB1, hd]; omega
    rw [zeroRange_eq B1 0 (P.blockSize - 8) (by omega) (by omega)]
    have hB2 : copyAt (List.take 0 B1 ++ zeros (P.blockSize - 8 - 0) ++ List.drop (P.blockSize - 8) B1)
        (P.blockSize - 8) (toBE 8 bits.toNat) = zeros (P.blockSize - 8) ++ toBE 8 bits.toNat := by
      simp only [copyAt, List.take_zero, List.nil_append, Nat.sub_zero, toBE_length]
      rw [List.take_append_of_le_length (by simp), List.take_of_length_le (by simp),
        List.drop_of_length_le (by simp; omega), List.append_nil]
    rw [hB2]
    have hz : zeros ((2 * A.blockBytes - A.lenBytes - 1 - tail.length) % A.blockBytes)
        ++ (zeros (A.lenBytes - 8) ++ toBE 8 bits.toNat)
        = zeros (P.blockSize - (tail.length + 1)) ++ (zeros (P.blockSize - 8) ++ toBE 8 bits.toNat) := by
      rw [Nat.mod_eq_of_lt (by omega), ← List.append_assoc, ← List.append_assoc]
      congr 1
      simp only [zeros, List.replicate_append_replicate]
      congr 1; omega
    have hpm : full ++ tail ++ ([0x80] ++ zeros ((2 * A.blockBytes - A.lenBytes - 1 - tail.length) % A.blockBytes)
        ++ (zeros (A.lenBytes - 8) ++ toBE 8 bits.toNat))
        = full ++ (B1 ++ (zeros (P.blockSize - 8) ++ toBE 8 bits.toNat)) := by
      rw [hB1, hd, List.append_nil]
      simp only [List.append_assoc] at hz ⊢
      rw [hz]
    rw [hpm]
    have hBl2 : (zeros (P.blockSize - 8) ++ toBE 8 bits.toNat).length = P.blockSize := by simp; omega
    rw [hfold _ (by
      rw [List.length_append, List.length_append, hB1l, hBl2]
      simp [Nat.add_mod, h3])]
    rw [chunks_append hb h3, List.foldl_append, ← h7, chunks_append_block hb hB1l,
      chunks_singleton (by intro e; rw [e] at hBl2; simp at hBl2; omega) (by omega)]
    rfl
  · rw [if_neg hc]
    refine ⟨_, rfl, ?_⟩
    simp only
    rw [zeroRange_eq buf1 (s.offset + 1) (P.blockSize - 8) (by omega) (by omega), h5, hb1t]
    have hB2 : copyAt (tail ++ [0x80] ++ zeros (P.blockSize - 8 - (tail.length + 1))
        ++ List.drop (P.blockSize - 8) buf1)
        (P.blockSize - 8) (toBE 8 bits.toNat) =
        tail ++ [0x80] ++ zeros (P.blockSize - 8 - (tail.length + 1)) ++ toBE 8 bits.toNat := by
      simp only [copyAt, toBE_length]
      rw [List.take_append_of_le_length (by simp; omega), List.take_of_length_le (by simp; omega),
        List.drop_of_length_le (by simp; omega), List.append_nil]
    rw [hB2]
    have hz : zeros ((2 * A.blockBytes - A.lenBytes - 1 - tail.length) % A.blockBytes)
        ++ (zeros (A.lenBytes - 8) ++ toBE 8 bits.toNat)
        = zeros (P.blockSize - 8 - (tail.length + 1)) ++ toBE 8 bits.toNat := by
      rw [show 2 * A.blockBytes - A.lenBytes - 1 - tail.length
        = (A.blockBytes - A.lenBytes - 1 - tail.length) + A.blockBytes by omega, Nat.add_mod_right,
        Nat.mod_eq_of_lt (by omega), ← List.append_assoc]
      congr 1
      simp only [zeros, List.replicate_append_replicate]
      congr 1; omega
    set B := tail ++ [0x80] ++ zeros (P.blockSize - 8 - (tail.length + 1)) ++ toBE 8 bits.toNat with hB
    have hpm : full ++ tail ++ ([0x80] ++ zeros ((2 * A.blockBytes - A.lenBytes - 1 - tail.length) % A.blockBytes)
        ++ (zeros (A.lenBytes - 8) ++ toBE 8 bits.toNat)) = full ++ B := by
      rw [hB]
      simp only [List.append_assoc] at hz ⊢
      rw [hz]
    have hBl : B.length = P.blockSize := by simp [hB]; omega
    rw [hpm, hfold _ (by rw [List.length_append, hBl]; simp [h3])]
    rw [chunks_append hb h3, List.foldl_append, ← h7,
      chunks_singleton (by intro e; rw [e] at hBl; simp at hBl; omega) (by omega)]
    rfl

/-- `s` has been fed `msg`. -/
def ShaRel (P : Params w) (f : Oct w → Bytes → Oct w) (iv : Oct w) (msg : Bytes) (s : Proc w) : Prop :=
  Absorbs P f iv msg s ∧ s.len = BitVec.ofNat 64 msg.length

theorem shaRel_update (hb : 0 < P.blockSize) (m : Mode) (iv : Oct w) (msg x : Bytes) (s : Proc w)
    (hs : ShaRel P f iv msg s)
    (hm : m = .release ∨ msg.length % 2 ^ 64 + x.length % 2 ^ 64 < 2 ^ 64) :
    ∃ s', update f m s x = some s' ∧ ShaRel P f iv (msg ++ x) s' := by
  have hadd : addC m s.len (BitVec.ofNat 64 x.length) = some (BitVec.ofNat 64 (msg ++ x).length) := by
    rw [List.length_append, BitVec.ofNat_add, hs.2]
    rcases hm with rfl | h
    · exact addC_release _ _
    · apply addC_ok; simpa using h
  obtain ⟨s', h1, h2, h3⟩ := update_spec hb m iv msg x s hs.1 _ hadd
  exact ⟨s', h1, h2, h3⟩

theorem digestWith_length (iv : Oct w) (n : Nat) (hn : n ≤ 8 * (w / 8)) (msg : Bytes)
    (bits : Nat) : (Spec.Sha2.digestWithF A f iv n msg bits).length = n := by
  unfold Spec.Sha2.digestWithF
  simp only [List.length_take, List.length_flatMap, toBE_length, Oct.toList]
  simp; omega

theorem lawful_impl (M : Matches P A) (iv : Oct w) (n : Nat) (hn : n ≤ 8 * (w / 8)) (h0 : 0 < n)
    (hd : n % (w / 8) = 0) (h64 : n ≤ 64) (h128 : P.blockSize ≤ 128) :
    Lawful (ShaWith.implFunction P f iv n P.blockSize) (Spec.Sha2.digestF A f iv n) (ShaRel P f iv) := by
  have hb := M.block
  have hw := M.wpos
  refine ⟨⟨absorbs_new iv (by omega), rfl⟩, ?_, ?_, ?_, h0, h64, ?_, h128.trans (by norm_num)⟩
  · intro m msg s x hs hl
    exact shaRel_update (by omega) m iv msg x s hs (Or.inr (by rw [List.length_append] at hl; omega))
  · intro m msg s out hs hl ho
    have ho : out.length = n := ho
    show (do assert (n == out.length); procWriteDigest P f m s out.length) = _
    rw [ho]
    simp only [beq_self_eq_true, assert_true, Option.bind_eq_bind, Option.bind_some]
    have hmul : mulC m 8 s.len = some (BitVec.ofNat 64 (8 * msg.length)) := by
      rw [hs.2, BitVec.ofNat_mul]
      apply mulC_ok
      have e8 : (8 : U64).toNat = 8 := rfl
      rw [e8, BitVec.toNat_ofNat]
      omega
    rw [procWriteDigest_spec M m iv msg s hs.1 _ hmul n hd]
    rw [Spec.Sha2.digestF, BitVec.toNat_ofNat, Nat.mod_eq_of_lt (by omega)]
  · intro msg; exact digestWith_length iv n hn msg _
  · show n ≤ P.blockSize
    omega

end

end CryptoPure.Proofs.ShaWith
