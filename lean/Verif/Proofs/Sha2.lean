import Verif.Proofs.Basic
import Verif.Model.Sha2
import Verif.Spec.Sha2

/-! Proof that the SHA-2 processor computes FIPS 180-4. -/

namespace CryptoPure.Proofs.Sha2
open CryptoPure.Model.Sha2

/-- The macro arguments `P` describe the standard's algorithm `A`. -/
structure Matches {w : Nat} (P : Params w) (A : Spec.Sha2.Alg w) : Prop where
  wordBytes : P.wordBytes = w / 8
  wpos : 4 ≤ w / 8
  block : P.blockSize = 16 * (w / 8)
  ablock : A.blockBytes = 16 * (w / 8)
  alen : A.lenBytes = 2 * (w / 8)
  rounds : A.rounds = P.rounds
  r16 : 16 ≤ P.rounds
  k : P.k = (List.range P.rounds).map (Spec.Sha2.K w)
  S0 : bsig0 P = A.Sigma0
  S1 : bsig1 P = A.Sigma1
  s0 : ssig0 P = A.sigma0
  s1 : ssig1 P = A.sigma1

set_option maxRecDepth 100000 in
theorem matches512 : Matches P512 Spec.Sha2.alg512 where
  wordBytes := rfl
  wpos := by decide
  block := rfl
  ablock := rfl
  alen := rfl
  rounds := rfl
  r16 := by decide
  k := by decide +kernel
  S0 := rfl
  S1 := rfl
  s0 := rfl
  s1 := rfl

set_option maxRecDepth 100000 in
theorem matches256 : Matches P256 Spec.Sha2.alg256 where
  wordBytes := rfl
  wpos := by decide
  block := rfl
  ablock := rfl
  alen := rfl
  rounds := rfl
  r16 := by decide
  k := by decide +kernel
  S0 := rfl
  S1 := rfl
  s0 := rfl
  s1 := rfl

theorem iv512_eq : iv512 = Spec.Sha2.ivRoots 64 0 := by decide +kernel
theorem iv384_eq : iv384 = Spec.Sha2.ivRoots 64 8 := by decide +kernel
theorem iv256_eq : iv256 = Spec.Sha2.ivRoots 32 0 := by decide +kernel
theorem iv224_eq : iv224 = Spec.Sha2.iv224 := by decide +kernel

/-! ### The compression function -/

theorem chunks_getD {α : Type} {n : Nat} (hn : 0 < n) (l : List α) (i : Nat) (h : i * n < l.length) :
    (chunks n l)[i]? = some ((l.drop (i * n)).take n) := by
  induction i generalizing l with
  | zero =>
    have : l ≠ [] := by intro e; simp [e] at h
    rw [chunks_of_ne_nil hn this]; simp
  | succ i ih =>
    have hl : (i + 1) * n = i * n + n := by ring
    have : l ≠ [] := by intro e; simp [e] at h
    rw [chunks_of_ne_nil hn this, List.getElem?_cons_succ, ih _ (by simp; omega), List.drop_drop]
    congr 3; omega

section
variable {w : Nat} {P : Params w} {A : Spec.Sha2.Alg w}

theorem schedule_inv (M : Matches P A) (input : Bytes) (hin : input.length = P.blockSize) (n : Nat)
    (hn : n ≤ P.rounds - 16) :
    let ws := (List.range' 16 n).foldl (scheduleStep P)
      (readWords P input ++ List.replicate (P.rounds - 16) 0)
    ws.length = P.rounds ∧ ∀ i < 16 + n, ws.getD i 0 = Spec.Sha2.W A input i := by
  have hwb := M.wordBytes
  have hwp := M.wpos
  have hr := M.r16
  have hb := M.block
  have hrl : (readWords P input).length = 16 := by
    simp only [readWords, List.length_map]
    rw [chunks_length (by omega), hin, hb, hwb]
    rw [show 16 * (w / 8) + w / 8 - 1 = (w / 8 - 1) + 16 * (w / 8) by omega,
      Nat.add_mul_div_right _ _ (by omega), Nat.div_eq_of_lt (by omega)]
  induction n with
  | zero =>
    refine ⟨by simp [hrl]; omega, ?_⟩
    intro i hi
    have hi : i < 16 := by omega
    have : i * P.wordBytes < input.length := by
      rw [hin, hb, hwb]
      exact Nat.mul_lt_mul_of_lt_of_le hi (le_refl _) (by omega)
    simp only [List.range'_zero, List.foldl_nil, List.getD_eq_getElem?_getD]
    rw [List.getElem?_append_left (by omega)]
    simp only [readWords, List.getElem?_map]
    rw [chunks_getD (by omega) _ _ this]
    rw [Spec.Sha2.W, if_pos hi]
    simp [Spec.Sha2.wordOf, hwb]
  | succ n ih =>
    obtain ⟨hlen, hw⟩ := ih (by omega)
    simp only [List.range'_concat, List.foldl_append, List.foldl_cons, List.foldl_nil, Nat.one_mul]
    set ws := (List.range' 16 n).foldl (scheduleStep P)
      (readWords P input ++ List.replicate (P.rounds - 16) 0) with hws
    refine ⟨by simp [scheduleStep, hlen], ?_⟩
    intro i hi
    unfold scheduleStep
    rw [List.getD_eq_getElem?_getD, List.getElem?_set]
    by_cases h : 16 + n = i
    · rw [if_pos h, if_pos (by omega)]
      rw [Spec.Sha2.W, if_neg (by omega)]
      rw [hw _ (by omega), hw _ (by omega), hw _ (by omega), hw _ (by omega), M.s1, M.s0, ← h]
      rfl
    · rw [if_neg h, ← List.getD_eq_getElem?_getD]
      exact hw i (by omega)

theorem schedule_eq (M : Matches P A) (input : Bytes) (hin : input.length = P.blockSize) :
    schedule P input = (List.range P.rounds).map (Spec.Sha2.W A input) := by
  obtain ⟨h1, h2⟩ := schedule_inv M input hin (P.rounds - 16) (le_refl _)
  have hr := M.r16
  apply List.ext_getElem
  · simpa [schedule] using h1
  · intro i hi hi'
    have hi : i < P.rounds := by simpa using hi'
    have := h2 i (by omega)
    have h1' : i < (schedule P input).length := by simp only [schedule]; omega
    have e : (schedule P input).getD i 0 = (schedule P input)[i] := by
      rw [List.getD_eq_getElem?_getD, List.getElem?_eq_getElem h1']; rfl
    rw [← e]
    simpa [schedule] using this

theorem rounds_eq (M : Matches P A) (H : Oct w) (block : Bytes) (n : Nat) :
    ((List.range n).map fun t => (Spec.Sha2.K w t, Spec.Sha2.W A block t)).foldl (round P) H
      = Spec.Sha2.vars A H block n := by
  induction n with
  | zero => rfl
  | succ n ih =>
    rw [List.range_succ, List.map_append, List.foldl_append, ih]
    simp only [List.map_cons, List.map_nil, List.foldl_cons, List.foldl_nil, Spec.Sha2.vars, round,
      M.S0, M.S1]
    rfl

theorem process_eq (M : Matches P A) (H : Oct w) (block : Bytes) (hb : block.length = P.blockSize) :
    process P H block = Spec.Sha2.compress A H block := by
  unfold process Spec.Sha2.compress
  rw [schedule_eq M block hb, M.k, M.rounds]
  congr 1
  rw [List.zip_map', rounds_eq M]

/-! ### Buffering -/

/-- The processor `s`, started from `iv`, has absorbed exactly the bytes `msg`
(everything except the length counter). -/
def Absorbs (P : Params w) (iv : Oct w) (msg : Bytes) (s : Proc w) : Prop :=
  s.buffer.length = P.blockSize ∧ ∃ full tail, msg = full ++ tail ∧ full.length % P.blockSize = 0 ∧
    tail.length < P.blockSize ∧ s.offset = tail.length ∧ s.buffer.take tail.length = tail ∧
    s.state = (chunks P.blockSize full).foldl (process P) iv

theorem absorbs_new (iv : Oct w) (hb : 0 < P.blockSize) : Absorbs P iv [] (new P iv) := by
  refine ⟨by simp [new], [], [], rfl, by simp, by simpa using hb, rfl, rfl, rfl⟩

theorem absorbChunks_len (s : Proc w) (x : Bytes) : (absorbChunks P s x).len = s.len := by
  unfold absorbChunks
  generalize chunks s.buffer.length x = l
  induction l generalizing s with
  | nil => rfl
  | cons c cs ih =>
    rw [List.foldl_cons, ih]
    unfold absorbChunk; split <;> rfl

theorem absorbChunks_spec (hb : 0 < P.blockSize) (iv : Oct w) (x : Bytes) :
    ∀ (full : Bytes) (s : Proc w), s.buffer.length = P.blockSize → s.offset = 0 →
    full.length % P.blockSize = 0 → s.state = (chunks P.blockSize full).foldl (process P) iv →
    Absorbs P iv (full ++ x) (absorbChunks P s x) := by
  induction hk : x.length using Nat.strongRecOn generalizing x with
  | _ k ih =>
    intro full s h1 h2 h3 h4
    unfold absorbChunks
    rw [h1]
    by_cases hx : x = []
    · subst hx
      exact ⟨h1, full, [], rfl, h3, by simpa using hb, by simpa using h2, by simp, h4⟩
    · have hpos : 0 < x.length := List.length_pos_iff.mpr hx
      rcases Nat.lt_or_ge x.length P.blockSize with hlt | hge
      · rw [chunks_singleton hx (by omega)]
        simp only [List.foldl_cons, List.foldl_nil, absorbChunk]
        rw [if_pos (by omega)]
        refine ⟨?_, full, x, rfl, h3, hlt, rfl, ?_, h4⟩
        · simp only; rw [copyAt_length (by omega), h1]
        · simp [copyAt_zero]
      · rw [chunks_of_ne_nil hb hx, List.foldl_cons]
        have hl : (x.take P.blockSize).length = P.blockSize := by simp; omega
        have hs : absorbChunk P s (x.take P.blockSize) =
            { s with state := process P s.state (x.take P.blockSize) } := by
          unfold absorbChunk; rw [if_neg (by omega)]
        rw [hs]
        have := ih (x.drop P.blockSize).length (by simp; omega) (x.drop P.blockSize) rfl
          (full ++ x.take P.blockSize) { s with state := process P s.state (x.take P.blockSize) }
          h1 h2 (by rw [List.length_append, hl, Nat.add_mod_right]; exact h3) (by
            simp only
            rw [chunks_append hb h3, List.foldl_append, ← h4]
            rw [chunks_singleton (by intro e; rw [e] at hl; simp at hl; omega) (by omega)]
            rfl)
        rw [List.append_assoc, List.take_append_drop] at this
        unfold absorbChunks at this
        simp only [h1] at this
        exact this

/-- What `update` does when its length counter addition yields `len'`. -/
theorem update_spec (hb : 0 < P.blockSize) (m : Mode) (iv : Oct w) (msg x : Bytes) (s : Proc w)
    (hs : Absorbs P iv msg s) (len' : U64) (hlen : addC m s.len (BitVec.ofNat 64 x.length) = some len') :
    ∃ s', update P m s x = some s' ∧ Absorbs P iv (msg ++ x) s' ∧ s'.len = len' := by
  obtain ⟨h1, full, tail, rfl, h3, h4, h5, h6, h7⟩ := hs
  unfold update
  rw [hlen]
  simp only [Option.bind_eq_bind, Option.bind_some]
  by_cases ho : s.offset > 0
  · rw [if_pos ho]
    by_cases hsp : x.length < s.buffer.length - s.offset
    · rw [if_pos hsp]
      refine ⟨_, rfl, ⟨?_, full, tail ++ x, by simp, h3, ?_, ?_, ?_, h7⟩, rfl⟩
      · simp only; rw [copyAt_length (by omega), h1]
      · simp; omega
      · simp [h5]
      · simp only [copyAt, h5, h6]
        rw [List.take_append_of_le_length (by simp)]
        exact List.take_of_length_le (by simp)
    · rw [if_neg hsp]
      refine ⟨_, rfl, ?_, by rw [absorbChunks_len]⟩
      set sp := s.buffer.length - s.offset with hspd
      have htl : (x.take sp).length = sp := by simp; omega
      have hbuf : copyAt s.buffer s.offset (x.take sp) = tail ++ x.take sp := by
        simp only [copyAt, h5, h6, htl]
        rw [List.drop_of_length_le (by omega), List.append_nil]
      have hbl : (tail ++ x.take sp).length = P.blockSize := by
        rw [List.length_append, htl]; omega
      have := absorbChunks_spec hb iv (x.drop sp) (full ++ (tail ++ x.take sp))
        { state := process P s.state (tail ++ x.take sp), buffer := tail ++ x.take sp, offset := 0,
          len := len' } hbl rfl (by rw [List.length_append, hbl, Nat.add_mod_right]; exact h3) (by
            simp only
            rw [chunks_append hb h3, List.foldl_append, ← h7,
              chunks_singleton (by intro e; rw [e] at hbl; simp at hbl; omega) (by omega)]
            rfl)
      rw [hbuf]
      have e : full ++ tail ++ x = full ++ (tail ++ x.take sp) ++ x.drop sp := by
        simp [List.append_assoc]
      rw [e]
      exact this
  · rw [if_neg ho]
    have ho : s.offset = 0 := by omega
    have htail : tail = [] := List.length_eq_zero_iff.mp (by omega)
    subst htail
    refine ⟨_, rfl, ?_, by rw [absorbChunks_len]⟩
    rw [List.append_nil]
    exact absorbChunks_spec hb iv x full { s with len := len' } h1 ho h3 h7

/-! ### Padding -/

theorem zeroRange_eq (buf : Bytes) (lo hi : Nat) (h1 : lo ≤ hi) (h2 : hi ≤ buf.length) :
    zeroRange buf lo hi = buf.take lo ++ zeros (hi - lo) ++ buf.drop hi := by
  apply List.ext_getElem
  · simp [zeroRange]; omega
  · intro i hi' _
    simp only [zeroRange, List.getElem_mapIdx, zeros]
    simp only [List.getElem_append, List.length_append, List.length_take, List.length_replicate,
      List.getElem_take, List.getElem_replicate, List.getElem_drop]
    have hmin : min lo buf.length = lo := by omega
    simp only [hmin]
    by_cases a : i < lo
    · rw [if_neg (by omega), dif_pos (by omega), dif_pos a]
    · by_cases b : i < hi
      · rw [if_pos ⟨by omega, b⟩, dif_pos (by omega), dif_neg a]
      · rw [if_neg (by omega), dif_neg (by omega)]
        congr 1; omega

theorem toBE_extend (j k x : Nat) (h : x < 256 ^ k) : toBE (j + k) x = zeros j ++ toBE k x := by
  unfold toBE
  have : toLE (j + k) x = toLE k x ++ zeros j := by
    apply leNat_inj (by simp; omega)
    rw [leNat_toLE, leNat_append, leNat_toLE, leNat_zeros, Nat.mul_zero, Nat.add_zero, Nat.mod_eq_of_lt h,
      Nat.mod_eq_of_lt (lt_of_lt_of_le h (Nat.pow_le_pow_right (by omega) (by omega)))]
  rw [this]; simp [zeros]

theorem set_take_succ {α : Type} (l : List α) (i : Nat) (x : α) (h : i < l.length) :
    (l.set i x).take (i + 1) = l.take i ++ [x] := by
  rw [List.take_succ_eq_append_getElem (by simpa using h), List.take_set_of_le (le_refl _)]
  simp

theorem flatMap_take_uniform {α : Type} {β : Type} (f : α → List β) (n : Nat) (hf : ∀ a, (f a).length = n)
    (l : List α) (k : Nat) : (l.take k).flatMap f = (l.flatMap f).take (k * n) := by
  induction l generalizing k with
  | nil => simp
  | cons a l ih =>
    cases k with
    | zero => simp
    | succ k =>
      simp only [List.take_succ_cons, List.flatMap_cons, ih]
      rw [show (k + 1) * n = (f a).length + k * n by rw [hf]; ring, List.take_length_add_append]

/-- Finishing the hash when the bit-length multiplication yields `bits`. -/
theorem procWriteDigest_spec (M : Matches P A) (m : Mode) (iv : Oct w) (msg : Bytes) (s : Proc w)
    (hs : Absorbs P iv msg s) (bits : U64) (hbits : mulC m 8 s.len = some bits) (outLen : Nat)
    (hout : outLen % (w / 8) = 0) :
    procWriteDigest P m s outLen = some (Spec.Sha2.digestWith A iv outLen msg bits.toNat) := by
  obtain ⟨h1, full, tail, rfl, h3, h4, h5, h6, h7⟩ := hs
  have hwb := M.wordBytes
  have hwp := M.wpos
  have hbk := M.block
  have habk := M.ablock
  have hal := M.alen
  have hb : 0 < P.blockSize := by omega
  have hblt : bits.toNat < 256 ^ 8 := by have := bits.isLt; simpa using this
  have hlenmod : (full ++ tail).length % A.blockBytes = tail.length := by
    rw [List.length_append, habk, ← hbk, Nat.add_mod, h3, Nat.zero_add, Nat.mod_mod,
      Nat.mod_eq_of_lt h4]
  -- the padded message
  have hfold : ∀ (l : Bytes), l.length % P.blockSize = 0 →
      Spec.Sha2.hashBlocks A iv l = (chunks P.blockSize l).foldl (process P) iv := by
    intro l hl
    unfold Spec.Sha2.hashBlocks
    rw [habk, ← hbk]
    have hc := chunks_mem_length hb hl
    generalize chunks P.blockSize l = cs at hc
    clear h7
    induction cs generalizing iv with
    | nil => rfl
    | cons c cs ih =>
      rw [List.foldl_cons, List.foldl_cons, process_eq M iv c (hc c (by simp))]
      exact ih _ (fun c h => hc c (by simp [h]))
  set buf1 := s.buffer.set s.offset 0x80 with hbuf1
  have hb1l : buf1.length = P.blockSize := by simp [hbuf1, h1]
  have hb1t : buf1.take (tail.length + 1) = tail ++ [0x80] := by
    rw [hbuf1, h5, set_take_succ _ _ _ (by omega), h6]
  have hlf : toBE A.lenBytes bits.toNat = zeros (A.lenBytes - 8) ++ toBE 8 bits.toNat := by
    conv_lhs => rw [show A.lenBytes = (A.lenBytes - 8) + 8 by omega]
    exact toBE_extend _ _ _ hblt
  suffices hmain : ∃ s', pad P m s = some s' ∧ process P s'.state s'.buffer =
      Spec.Sha2.hashBlocks A iv (full ++ tail ++ Spec.Sha2.padding A (full ++ tail).length bits.toNat) by
    obtain ⟨s', e1, e2⟩ := hmain
    unfold procWriteDigest Spec.Sha2.digestWith
    rw [e1]
    simp only [Option.bind_eq_bind, Option.bind_some, e2, hwb]
    rw [flatMap_take_uniform _ (w / 8) (by simp)]
    rw [show outLen / (w / 8) * (w / 8) = outLen by
      rw [Nat.div_mul_cancel (Nat.dvd_of_mod_eq_zero hout)]]
  unfold pad
  rw [hbits, show (decide (s.offset < s.buffer.length)) = true by simp; omega]
  simp only [assert_true, Option.bind_eq_bind, Option.bind_some, ← hbuf1]
  unfold Spec.Sha2.padding
  rw [hlenmod, hlf]
  by_cases hc : s.offset + 1 > P.blockSize - 2 * P.wordBytes
  · rw [if_pos hc]
    refine ⟨_, rfl, ?_⟩
    simp only
    rw [zeroRange_eq buf1 (s.offset + 1) buf1.length (by omega) (le_refl _), h5, hb1t, hb1l]
    set B1 := tail ++ [0x80] ++ zeros (P.blockSize - (tail.length + 1)) ++ List.drop P.blockSize buf1 with hB1
    have hd : List.drop P.blockSize buf1 = [] := List.drop_of_length_le (by omega)
    have hB1l : B1.length = P.blockSize := by simp [hB1, hd]; omega
    rw [zeroRange_eq B1 0 (P.blockSize - 8) (by omega) (by omega)]
    have hB2 : copyAt (List.take 0 B1 ++ zeros (P.blockSize - 8 - 0) ++ List.drop (P.blockSize - 8) B1)
        (P.blockSize - 8) (toBE 8 bits.toNat) = zeros (P.blockSize - 8) ++ toBE 8 bits.toNat := by
      simp only [copyAt, List.take_zero, List.nil_append, Nat.sub_zero, toBE_length]
      rw [List.take_append_of_le_length (by simp), List.take_of_length_le (by simp),
        List.drop_of_length_le (by simp; omega), List.append_nil]
    rw [hB2]
    have hz : zeros ((2 * A.blockBytes - A.lenBytes - 1 - tail.length) % A.blockBytes)
        ++ (zeros (A.lenBytes - 8) ++ toBE 8 bits.toNat)
        = zeros (P.blockSize - (tail.length + 1)) ++ (zeros (P.blockSize - 8) ++ toBE 8 bits.toNat) := by
      rw [Nat.mod_eq_of_lt (by omega), ← List.append_assoc, ← List.append_assoc]
      congr 1
      simp only [zeros, List.replicate_append_replicate]
      congr 1; omega
    have hpm : full ++ tail ++ ([0x80] ++ zeros ((2 * A.blockBytes - A.lenBytes - 1 - tail.length) % A.blockBytes)
        ++ (zeros (A.lenBytes - 8) ++ toBE 8 bits.toNat))
        = full ++ (B1 ++ (zeros (P.blockSize - 8) ++ toBE 8 bits.toNat)) := by
      rw [hB1, hd, List.append_nil]
      simp only [List.append_assoc] at hz ⊢
      rw [hz]
    rw [hpm]
    have hBl2 : (zeros (P.blockSize - 8) ++ toBE 8 bits.toNat).length = P.blockSize := by simp; omega
    rw [hfold _ (by
      rw [List.length_append, List.length_append, hB1l, hBl2]
      simp [Nat.add_mod, h3])]
    rw [chunks_append hb h3, List.foldl_append, ← h7, chunks_append_block hb hB1l,
      chunks_singleton (by intro e; rw [e] at hBl2; simp at hBl2; omega) (by omega)]
    rfl
  · rw [if_neg hc]
    refine ⟨_, rfl, ?_⟩
    simp only
    rw [zeroRange_eq buf1 (s.offset + 1) (P.blockSize - 8) (by omega) (by omega), h5, hb1t]
    have hB2 : copyAt (tail ++ [0x80] ++ zeros (P.blockSize - 8 - (tail.length + 1))
        ++ List.drop (P.blockSize - 8) buf1)
        (P.blockSize - 8) (toBE 8 bits.toNat) =
        tail ++ [0x80] ++ zeros (P.blockSize - 8 - (tail.length + 1)) ++ toBE 8 bits.toNat := by
      simp only [copyAt, toBE_length]
      rw [List.take_append_of_le_length (by simp; omega), List.take_of_length_le (by simp; omega),
        List.drop_of_length_le (by simp; omega), List.append_nil]
    rw [hB2]
    have hz : zeros ((2 * A.blockBytes - A.lenBytes - 1 - tail.length) % A.blockBytes)
        ++ (zeros (A.lenBytes - 8) ++ toBE 8 bits.toNat)
        = zeros (P.blockSize - 8 - (tail.length + 1)) ++ toBE 8 bits.toNat := by
      rw [show 2 * A.blockBytes - A.lenBytes - 1 - tail.length
        = (A.blockBytes - A.lenBytes - 1 - tail.length) + A.blockBytes by omega, Nat.add_mod_right,
        Nat.mod_eq_of_lt (by omega), ← List.append_assoc]
      congr 1
      simp only [zeros, List.replicate_append_replicate]
      congr 1; omega
    set B := tail ++ [0x80] ++ zeros (P.blockSize - 8 - (tail.length + 1)) ++ toBE 8 bits.toNat with hB
    have hpm : full ++ tail ++ ([0x80] ++ zeros ((2 * A.blockBytes - A.lenBytes - 1 - tail.length) % A.blockBytes)
        ++ (zeros (A.lenBytes - 8) ++ toBE 8 bits.toNat)) = full ++ B := by
      rw [hB]
      simp only [List.append_assoc] at hz ⊢
      rw [hz]
    have hBl : B.length = P.blockSize := by simp [hB]; omega
    rw [hpm, hfold _ (by rw [List.length_append, hBl]; simp [h3])]
    rw [chunks_append hb h3, List.foldl_append, ← h7,
      chunks_singleton (by intro e; rw [e] at hBl; simp at hBl; omega) (by omega)]
    rfl

theorem procWriteDigest_none (m : Mode) (s : Proc w) (h : mulC m 8 s.len = none) (outLen : Nat) :
    procWriteDigest P m s outLen = none := by
  unfold procWriteDigest pad
  rw [h]
  cases assert (decide (s.offset < s.buffer.length)) <;> simp

end

end CryptoPure.Proofs.Sha2
