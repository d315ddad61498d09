import Verif.Proofs.Basic
import Verif.Proofs.AesTables
import Mathlib.Data.Fintype.EquivFin
import Mathlib.Data.Finite.Prod
import Mathlib.Data.Fintype.Pi
import Mathlib.Tactic.FinCases
import Mathlib.Tactic.IntervalCases

/-! AES: the code computes FIPS 197, and `permute` is a bijection. -/

namespace CryptoPure.Proofs.Aes
open CryptoPure.Model.Aes

/-! ### Lists of sixteen and four bytes -/

theorem exists4 (l : Bytes) (h : l.length = 4) : ∃ a b c d, l = [a, b, c, d] := by
  match l, h with
  | [a, b, c, d], _ => exact ⟨a, b, c, d, rfl⟩

theorem exists16 (l : Bytes) (h : l.length = 16) :
    ∃ a0 a1 a2 a3 a4 a5 a6 a7 a8 a9 a10 a11 a12 a13 a14 a15,
      l = [a0, a1, a2, a3, a4, a5, a6, a7, a8, a9, a10, a11, a12, a13, a14, a15] := by
  match l, h with
  | [a0, a1, a2, a3, a4, a5, a6, a7, a8, a9, a10, a11, a12, a13, a14, a15], _ =>
    exact ⟨_, _, _, _, _, _, _, _, _, _, _, _, _, _, _, _, rfl⟩

theorem load_store (s : Spec.Aes.State) : Spec.Aes.load (Spec.Aes.store s) = s := by
  funext r c
  fin_cases r <;> fin_cases c <;> rfl

theorem store_load (l : Bytes) (h : l.length = 16) : Spec.Aes.store (Spec.Aes.load l) = l := by
  obtain ⟨a0, a1, a2, a3, a4, a5, a6, a7, a8, a9, a10, a11, a12, a13, a14, a15, rfl⟩ := exists16 l h
  rfl

@[simp] theorem store_length (s : Spec.Aes.State) : (Spec.Aes.store s).length = 16 := rfl

theorem subBytes_store (s : Spec.Aes.State) :
    subBytes (Spec.Aes.store s) = Spec.Aes.store (Spec.Aes.subBytes s) := by
  simp only [subBytes, Spec.Aes.store, Spec.Aes.subBytes, List.map_cons, List.map_nil, sBox_eq]

theorem shiftRows_store (s : Spec.Aes.State) :
    shiftRows (Spec.Aes.store s) = Spec.Aes.store (Spec.Aes.shiftRows s) := rfl

theorem mixColumns_store (s : Spec.Aes.State) :
    mixColumns (Spec.Aes.store s) = Spec.Aes.store (Spec.Aes.mixColumns s) := by
  have e : mixColumns (Spec.Aes.store s) =
      mixColumn [s 0 0, s 1 0, s 2 0, s 3 0] ++ (mixColumn [s 0 1, s 1 1, s 2 1, s 3 1] ++
      (mixColumn [s 0 2, s 1 2, s 2 2, s 3 2] ++ (mixColumn [s 0 3, s 1 3, s 2 3, s 3 3] ++ []))) := rfl
  have h : ∀ c : Fin 4, mixColumn [s 0 c, s 1 c, s 2 c, s 3 c] =
      [Spec.Aes.mixColumns s 0 c, Spec.Aes.mixColumns s 1 c, Spec.Aes.mixColumns s 2 c,
       Spec.Aes.mixColumns s 3 c] := by
    intro c
    simp only [mixColumn, xtimeColumn, xorColumn, List.getD_cons_zero, List.getD_cons_succ,
      Spec.Aes.mixColumns, xtime_eq3]
    simp only [xtime_eq]
    rfl
  rw [e, h, h, h, h]
  rfl

/-! ### Key expansion -/

/-- Byte `j` of word `i` in a flat schedule. -/
def wordAt (l : Bytes) (i : Nat) : Spec.Aes.Word := fun j => l.getD (4 * i + j.val) 0

theorem getD_set_eq (l : Bytes) (i j : Nat) (v : U8) :
    (l.set i v).getD j 0 = if i = j ∧ i < l.length then v else l.getD j 0 := by
  rw [List.getD_eq_getElem?_getD, List.getD_eq_getElem?_getD, List.getElem?_set]
  split
  · subst_vars
    split <;> simp_all
  · simp_all

theorem take4 (l : Bytes) (k : Nat) (h : k + 4 ≤ l.length) :
    (l.drop k).take 4 = [l.getD k 0, l.getD (k + 1) 0, l.getD (k + 2) 0, l.getD (k + 3) 0] := by
  apply List.ext_getElem
  · simp; omega
  · intro i h1 h2
    have h2 : i < 4 := by simpa using h2
    simp only [List.getElem_take, List.getElem_drop]
    have : ∀ j (hj : j < l.length), l.getD j 0 = l[j] := by
      intro j hj; rw [List.getD_eq_getElem?_getD, List.getElem?_eq_getElem hj]; rfl
    rw [this k (by omega), this (k + 1) (by omega), this (k + 2) (by omega), this (k + 3) (by omega)]
    interval_cases i <;> rfl

theorem temp_word (t : Bytes) (ht : t.length = 4) (nk : Nat) (rc : U8) (i : Nat) (w : Spec.Aes.Word)
    (hw : ∀ j : Fin 4, t.getD j.val 0 = w j) (hrc : i % nk = 0 → rc = Spec.Aes.xpow (i / nk - 1)) :
    ∀ j : Fin 4, (if i % nk = 0 then
        ((subWord (t.rotateLeft 1)).set 0 ((subWord (t.rotateLeft 1)).getD 0 0 ^^^ rc), xtime rc)
      else if nk > 6 ∧ i % nk = 4 then (subWord t, rc) else (t, rc)).1.getD j.val 0 =
      (if i % nk = 0 then fun j => Spec.Aes.subWord (Spec.Aes.rotWord w) j ^^^ Spec.Aes.rcon (i / nk) j
      else if nk > 6 ∧ i % nk = 4 then Spec.Aes.subWord w else w) j := by
  obtain ⟨a, b, c, d, rfl⟩ := exists4 t ht
  intro j
  have ha : w 0 = a := (hw 0).symm
  have hb : w 1 = b := (hw 1).symm
  have hc : w 2 = c := (hw 2).symm
  have hd : w 3 = d := (hw 3).symm
  split
  · rename_i h
    rw [hrc h]
    have e : subWord (List.rotateLeft [a, b, c, d] 1) = [sBox b, sBox c, sBox d, sBox a] := rfl
    rw [e]
    fin_cases j
    · show sBox b ^^^ _ = Spec.Aes.sbox (w 1) ^^^ _
      rw [hb, sBox_eq]; rfl
    · show sBox c = Spec.Aes.sbox (w 2) ^^^ 0#8
      rw [hc, sBox_eq]; simp
    · show sBox d = Spec.Aes.sbox (w 3) ^^^ 0#8
      rw [hd, sBox_eq]; simp
    · show sBox a = Spec.Aes.sbox (w 0) ^^^ 0#8
      rw [ha, sBox_eq]; simp
  · split
    · fin_cases j
      · show sBox a = Spec.Aes.sbox (w 0); rw [ha, sBox_eq]
      · show sBox b = Spec.Aes.sbox (w 1); rw [hb, sBox_eq]
      · show sBox c = Spec.Aes.sbox (w 2); rw [hc, sBox_eq]
      · show sBox d = Spec.Aes.sbox (w 3); rw [hd, sBox_eq]
    · exact hw j

theorem setWord_getD (l temp : Bytes) (i nk : Nat) (hl : 4 * i + 4 ≤ l.length)
    (p : Nat) :
    ([0, 1, 2, 3].foldl
      (fun sch j => sch.set (4 * i + j) (sch.getD (4 * (i - nk) + j) 0 ^^^ temp.getD j 0)) l).getD p 0 =
    if 4 * i ≤ p ∧ p < 4 * i + 4 then l.getD (4 * (i - nk) + (p - 4 * i)) 0 ^^^ temp.getD (p - 4 * i) 0
    else l.getD p 0 := by
  simp only [List.foldl_cons, List.foldl_nil, getD_set_eq, List.length_set]
  by_cases h : 4 * i ≤ p ∧ p < 4 * i + 4
  · rw [if_pos h]
    obtain ⟨j, rfl⟩ : ∃ j, p = 4 * i + j := ⟨p - 4 * i, by omega⟩
    rw [show 4 * i + j - 4 * i = j by omega]
    have hj : j < 4 := by omega
    interval_cases j <;> (repeat rw [if_neg (by omega)]) <;> rw [if_pos (by omega)] <;>
      (repeat rw [if_neg (by omega)])
  · rw [if_neg h]
    (repeat rw [if_neg (by omega)])

theorem keyExp_inv (nk : Nat) (hnk : 0 < nk) (key : Bytes) (hk : key.length = 4 * nk) (n : Nat)
    (hn : nk + n ≤ 4 * (nk + 6 + 1)) :
    let s := (List.range' nk n).foldl (keyExpStep nk)
      { schedule := copyAt (zeros (16 * (nk + 6 + 1))) 0 key, rcon := 0x01 }
    s.schedule.length = 16 * (nk + 6 + 1) ∧
    (∀ i < nk + n, wordAt s.schedule i = Spec.Aes.keyWord nk key i) ∧
    s.rcon = Spec.Aes.xpow ((nk + n - 1) / nk) := by
  induction n with
  | zero =>
    refine ⟨?_, ?_, ?_⟩
    · simp only [List.range'_zero, List.foldl_nil]
      rw [copyAt_length (by simp; omega), zeros_length]
    · intro i hi
      funext j
      rw [Spec.Aes.keyWord, dif_pos (by omega)]
      simp only [wordAt, List.range'_zero, List.foldl_nil, copyAt_zero]
      have := j.isLt
      rw [List.getD_eq_getElem?_getD, List.getD_eq_getElem?_getD, List.getElem?_append_left (by omega)]
    · simp only [List.range'_zero, List.foldl_nil, Nat.add_zero]
      rw [Nat.div_eq_of_lt (by omega)]
      rfl
  | succ n ih =>
    obtain ⟨h1, h2, h3⟩ := ih (by omega)
    simp only [List.range'_concat, List.foldl_append, List.foldl_cons, List.foldl_nil, Nat.one_mul]
    set s := (List.range' nk n).foldl (keyExpStep nk)
      { schedule := copyAt (zeros (16 * (nk + 6 + 1))) 0 key, rcon := 0x01 } with hs
    set i := nk + n with hi
    have htl : ((s.schedule.drop (4 * (i - 1))).take 4).length = 4 := by simp; omega
    have hprev := h2 (i - 1) (by omega)
    have htw : ∀ j : Fin 4, ((s.schedule.drop (4 * (i - 1))).take 4).getD j.val 0
        = Spec.Aes.keyWord nk key (i - 1) j := by
      intro j
      rw [← hprev, take4 _ _ (by omega)]
      fin_cases j <;> rfl
    have hrcon : i % nk = 0 → s.rcon = Spec.Aes.xpow (i / nk - 1) := by
      intro hmod
      rw [h3]
      congr 1
      obtain ⟨q, hq⟩ := Nat.dvd_of_mod_eq_zero hmod
      rw [hq, Nat.mul_div_cancel_left _ hnk]
      have hq1 : 1 ≤ q := by
        rcases Nat.eq_zero_or_pos q with h0 | h0
        · rw [h0] at hq; omega
        · exact h0
      obtain ⟨q', rfl⟩ : ∃ q', q = q' + 1 := ⟨q - 1, by omega⟩
      rw [show nk * (q' + 1) - 1 = (nk - 1) + nk * q' by rw [Nat.mul_add]; omega,
        Nat.add_mul_div_left _ _ hnk, Nat.div_eq_of_lt (by omega)]
      omega
    have ht := temp_word _ htl nk s.rcon i _ htw hrcon
    unfold keyExpStep
    simp only
    set tr := (if i % nk = 0 then
        ((subWord (((s.schedule.drop (4 * (i - 1))).take 4).rotateLeft 1)).set 0
          ((subWord (((s.schedule.drop (4 * (i - 1))).take 4).rotateLeft 1)).getD 0 0 ^^^ s.rcon), xtime s.rcon)
      else if nk > 6 ∧ i % nk = 4 then (subWord ((s.schedule.drop (4 * (i - 1))).take 4), s.rcon)
      else ((s.schedule.drop (4 * (i - 1))).take 4, s.rcon)) with htr
    refine ⟨?_, ?_, ?_⟩
    · simp [h1]
    · intro k hk'
      funext j
      have hj := j.isLt
      simp only [wordAt]
      rw [setWord_getD _ _ i nk (by omega)]
      by_cases hki : k = i
      · subst hki
        rw [if_pos (by omega), Spec.Aes.keyWord, dif_neg (by omega)]
        have hold := congrFun (h2 (i - nk) (by omega)) j
        rw [← hold, ← ht j, show 4 * i + j.val - 4 * i = j.val by omega]
        rfl
      · have hlt : k < i := by omega
        rw [← h2 k hlt, if_neg (by omega)]
        rfl
    · by_cases hmod : i % nk = 0
      · rw [htr, if_pos hmod]
        simp only
        rw [xtime_eq, hrcon hmod, show nk + (n + 1) - 1 = i by omega]
        obtain ⟨q, hq⟩ := Nat.dvd_of_mod_eq_zero hmod
        rw [hq, Nat.mul_div_cancel_left _ hnk]
        have hq1 : 1 ≤ q := by
          rcases Nat.eq_zero_or_pos q with h0 | h0
          · rw [h0] at hq; omega
          · exact h0
        obtain ⟨q', rfl⟩ : ∃ q', q = q' + 1 := ⟨q - 1, by omega⟩
        rfl
      · have e : tr.2 = s.rcon := by
          rw [htr, if_neg hmod]; split <;> rfl
        rw [e, h3, show nk + (n + 1) - 1 = (i - 1) + 1 by omega]
        congr 1
        rw [Nat.succ_div_of_not_dvd]
        intro hd
        rw [show i - 1 + 1 = i by omega] at hd
        exact hmod (Nat.mod_eq_zero_of_dvd hd)

theorem keyExpansion_spec (nk : Nat) (hnk : 0 < nk) (key : Bytes) :
    (key.length ≠ 4 * nk → keyExpansion nk key = none) ∧
    (key.length = 4 * nk → ∃ sch, keyExpansion nk key = some sch ∧ sch.length = 16 * (nk + 6 + 1) ∧
      ∀ i < 4 * (nk + 6 + 1), wordAt sch i = Spec.Aes.keyWord nk key i) := by
  constructor
  · intro h
    unfold keyExpansion
    rw [beq_eq_false_iff_ne.mpr (fun e => h e.symm)]; rfl
  · intro h
    obtain ⟨h1, h2, _⟩ := keyExp_inv nk hnk key h (4 * (nk + 6 + 1) - nk) (by omega)
    unfold keyExpansion
    rw [h]
    simp only [beq_self_eq_true, assert_true, Option.bind_eq_bind, Option.bind_some]
    refine ⟨_, rfl, h1, fun i hi => h2 i (by omega)⟩

/-! ### The cipher -/

theorem roundKey_eq (sch : Bytes) (round : Nat) (h : 16 * (round + 1) ≤ sch.length) :
    roundKey sch round = Spec.Aes.store (fun r c => wordAt sch (4 * round + c.val) r) := by
  unfold roundKey
  have e : (sch.drop (16 * round)).take 16 = (sch.drop (16 * round)).take 4 ++
      ((sch.drop (16 * round + 4)).take 4 ++ ((sch.drop (16 * round + 8)).take 4 ++
       (sch.drop (16 * round + 12)).take 4)) := by
    rw [show 16 = 4 + (4 + (4 + 4)) from rfl]
    rw [List.take_add, List.drop_drop, List.take_add, List.drop_drop, List.take_add, List.drop_drop]
  rw [e, take4 _ _ (by omega), take4 _ _ (by omega), take4 _ _ (by omega), take4 _ _ (by omega)]
  simp only [Spec.Aes.store, wordAt, List.cons_append, List.nil_append]
  rw [show (4 * (4 * round + (0 : Fin 4).val)) = 16 * round by rw [Fin.val_zero]; omega,
    show (4 * (4 * round + (1 : Fin 4).val)) = 16 * round + 4 by rw [Fin.val_one]; omega,
    show (4 * (4 * round + (2 : Fin 4).val)) = 16 * round + 8 by rw [Fin.val_two]; omega,
    show (4 * (4 * round + (3 : Fin 4).val)) = 16 * round + 12 by
      rw [show (3 : Fin 4).val = 3 from rfl]; omega]
  rfl

theorem addRoundKey_store (sch : Bytes) (w : Nat → Spec.Aes.Word) (s : Spec.Aes.State) (round : Nat)
    (h : 16 * (round + 1) ≤ sch.length) (hw : ∀ i < 4 * (round + 1), wordAt sch i = w i) :
    addRoundKey sch (Spec.Aes.store s) round = Spec.Aes.store (Spec.Aes.addRoundKey w round s) := by
  unfold addRoundKey
  rw [roundKey_eq sch round h]
  have e : (fun (r c : Fin 4) => wordAt sch (4 * round + c.val) r) = fun r c => w (4 * round + c.val) r := by
    funext r c; rw [hw _ (by omega)]
  rw [e]
  rfl

theorem permute_spec (nk : Nat) (sch : Bytes) (w : Nat → Spec.Aes.Word) (inp : Bytes)
    (h : sch.length = 16 * (nk + 6 + 1)) (hw : ∀ i < 4 * (nk + 6 + 1), wordAt sch i = w i)
    (hi : inp.length = 16) :
    permute nk sch inp = Spec.Aes.cipher (nk + 6) w inp := by
  have hr : ∀ n ≤ nk + 6 - 1, (List.range' 1 n).foldl
      (fun st round => addRoundKey sch (mixColumns (shiftRows (subBytes st))) round) (addRoundKey sch inp 0)
      = Spec.Aes.store (Spec.Aes.rounds w (Spec.Aes.load inp) n) := by
    intro n
    induction n with
    | zero =>
      intro _
      simp only [List.range'_zero, List.foldl_nil, Spec.Aes.rounds]
      conv_lhs => rw [← store_load inp hi]
      exact addRoundKey_store sch w _ 0 (by omega) (fun i hi => hw i (by omega))
    | succ n ih =>
      intro hn
      rw [List.range'_concat, List.foldl_append, ih (by omega)]
      simp only [List.foldl_cons, List.foldl_nil, Nat.one_mul]
      rw [subBytes_store, shiftRows_store, mixColumns_store,
        addRoundKey_store sch w _ (1 + n) (by omega) (fun i hi => hw i (by omega)), Nat.add_comm 1 n]
      rfl
  unfold permute Spec.Aes.cipher
  simp only
  rw [hr _ (le_refl _), subBytes_store, shiftRows_store,
    addRoundKey_store sch w _ (nk + 6) (by omega) (fun i hi => hw i (by omega))]

/-! ### Invertibility -/

theorem xtime_xor (x y : U8) : xtime (x ^^^ y) = xtime x ^^^ xtime y := by
  rw [xtime_msb, xtime_msb, xtime_msb, BitVec.msb_xor, BitVec.shiftLeft_xor_distrib]
  cases x.msb <;> cases y.msb <;> simp only [Bool.xor_false, Bool.xor_true, Bool.not_true, Bool.not_false,
    if_true, if_false, Bool.false_eq_true, BitVec.xor_zero]
  · rw [BitVec.xor_assoc]
  · rw [BitVec.xor_assoc, BitVec.xor_assoc, BitVec.xor_comm (y <<< 1)]
  · rw [BitVec.xor_assoc (x <<< 1), ← BitVec.xor_assoc (0x1b#8), BitVec.xor_comm (0x1b#8) (y <<< 1),
      BitVec.xor_assoc (y <<< 1), BitVec.xor_self, BitVec.xor_zero]

instance : Std.Commutative (α := U8) (· ^^^ ·) := ⟨BitVec.xor_comm⟩
instance : Std.Associative (α := U8) (· ^^^ ·) := ⟨BitVec.xor_assoc⟩

theorem xor_cancel_left (a b : U8) : a ^^^ (a ^^^ b) = b := by
  rw [← BitVec.xor_assoc, BitVec.xor_self, BitVec.zero_xor]

theorem xor_left_comm (a b c : U8) : a ^^^ (b ^^^ c) = b ^^^ (a ^^^ c) := by
  rw [← BitVec.xor_assoc, BitVec.xor_comm a b, BitVec.xor_assoc]

/-- Apply MixColumns twice: multiplication by `{04} x^2 + {05}`. -/
theorem mixColumn_twice (a b c d : U8) : mixColumn (mixColumn [a, b, c, d]) =
    [xtime (xtime a) ^^^ a ^^^ xtime (xtime c), xtime (xtime b) ^^^ b ^^^ xtime (xtime d),
     xtime (xtime c) ^^^ c ^^^ xtime (xtime a), xtime (xtime d) ^^^ d ^^^ xtime (xtime b)] := by
  simp only [mixColumn, xtimeColumn, xorColumn, List.getD_cons_zero, List.getD_cons_succ, xtime_xor]
  simp only [List.cons.injEq, and_true]
  refine ⟨?_, ?_, ?_, ?_⟩ <;>
  simp [BitVec.xor_assoc, BitVec.xor_comm, xor_left_comm, xor_cancel_left]

theorem mixColumn_four (a b c d : U8) :
    mixColumn (mixColumn (mixColumn (mixColumn [a, b, c, d]))) = [a, b, c, d] := by
  rw [mixColumn_twice, mixColumn_twice]
  simp only [xtime_xor, List.cons.injEq, and_true]
  refine ⟨?_, ?_, ?_, ?_⟩ <;>
  simp [BitVec.xor_assoc, BitVec.xor_comm, xor_left_comm, xor_cancel_left]

theorem mixColumns_explicit (a0 a1 a2 a3 a4 a5 a6 a7 a8 a9 a10 a11 a12 a13 a14 a15 : U8) :
    mixColumns [a0, a1, a2, a3, a4, a5, a6, a7, a8, a9, a10, a11, a12, a13, a14, a15] =
    mixColumn [a0, a1, a2, a3] ++ (mixColumn [a4, a5, a6, a7] ++ (mixColumn [a8, a9, a10, a11] ++
      (mixColumn [a12, a13, a14, a15] ++ []))) := rfl

theorem mixColumn_length (l : Bytes) : (mixColumn l).length = 4 := rfl

theorem mixColumn_inj (l l' : Bytes) (h : l.length = 4) (h' : l'.length = 4)
    (e : mixColumn l = mixColumn l') : l = l' := by
  obtain ⟨a, b, c, d, rfl⟩ := exists4 l h
  obtain ⟨a', b', c', d', rfl⟩ := exists4 l' h'
  rw [← mixColumn_four a b c d, ← mixColumn_four a' b' c' d', e]

theorem mixColumns_inj (l l' : Bytes) (h : l.length = 16) (h' : l'.length = 16)
    (e : mixColumns l = mixColumns l') : l = l' := by
  obtain ⟨a0, a1, a2, a3, a4, a5, a6, a7, a8, a9, a10, a11, a12, a13, a14, a15, rfl⟩ := exists16 l h
  obtain ⟨b0, b1, b2, b3, b4, b5, b6, b7, b8, b9, b10, b11, b12, b13, b14, b15, rfl⟩ := exists16 l' h'
  rw [mixColumns_explicit, mixColumns_explicit] at e
  obtain ⟨e1, e⟩ := List.append_inj e (by simp [mixColumn_length])
  obtain ⟨e2, e⟩ := List.append_inj e (by simp [mixColumn_length])
  obtain ⟨e3, e⟩ := List.append_inj e (by simp [mixColumn_length])
  obtain ⟨e4, -⟩ := List.append_inj e (by simp [mixColumn_length])
  have e1 := mixColumn_inj _ _ rfl rfl e1
  have e2 := mixColumn_inj _ _ rfl rfl e2
  have e3 := mixColumn_inj _ _ rfl rfl e3
  have e4 := mixColumn_inj _ _ rfl rfl e4
  simp only [List.cons.injEq, and_true] at e1 e2 e3 e4 ⊢
  obtain ⟨rfl, rfl, rfl, rfl⟩ := e1
  obtain ⟨rfl, rfl, rfl, rfl⟩ := e2
  obtain ⟨rfl, rfl, rfl, rfl⟩ := e3
  obtain ⟨rfl, rfl, rfl, rfl⟩ := e4
  simp

theorem shiftRows_explicit (a0 a1 a2 a3 a4 a5 a6 a7 a8 a9 a10 a11 a12 a13 a14 a15 : U8) :
    shiftRows [a0, a1, a2, a3, a4, a5, a6, a7, a8, a9, a10, a11, a12, a13, a14, a15] =
    [a0, a5, a10, a15, a4, a9, a14, a3, a8, a13, a2, a7, a12, a1, a6, a11] := rfl

theorem shiftRows_inj (l l' : Bytes) (h : l.length = 16) (h' : l'.length = 16)
    (e : shiftRows l = shiftRows l') : l = l' := by
  obtain ⟨a0, a1, a2, a3, a4, a5, a6, a7, a8, a9, a10, a11, a12, a13, a14, a15, rfl⟩ := exists16 l h
  obtain ⟨b0, b1, b2, b3, b4, b5, b6, b7, b8, b9, b10, b11, b12, b13, b14, b15, rfl⟩ := exists16 l' h'
  rw [shiftRows_explicit, shiftRows_explicit] at e
  simp only [List.cons.injEq, and_true] at e
  obtain ⟨rfl, rfl, rfl, rfl, rfl, rfl, rfl, rfl, rfl, rfl, rfl, rfl, rfl, rfl, rfl, rfl⟩ := e
  rfl

theorem sBox_inj : Function.Injective sBox := fun x y h => by
  rw [← sBox_left_inv x, ← sBox_left_inv y, h]

theorem subBytes_inj (l l' : Bytes) (e : subBytes l = subBytes l') : l = l' :=
  List.map_injective_iff.mpr sBox_inj e

theorem roundKey_length (sch : Bytes) (round : Nat) (h : 16 * (round + 1) ≤ sch.length) :
    (roundKey sch round).length = 16 := by
  simp [roundKey]; omega

theorem addRoundKey_inj (sch l l' : Bytes) (round : Nat) (hs : 16 * (round + 1) ≤ sch.length)
    (h : l.length = 16) (h' : l'.length = 16)
    (e : addRoundKey sch l round = addRoundKey sch l' round) : l = l' := by
  have hr := roundKey_length sch round hs
  rw [← xorBytes_cancel l (roundKey sch round) (by omega), ← xorBytes_cancel l' (roundKey sch round) (by omega)]
  exact congrArg (fun t => xorBytes t (roundKey sch round)) e

theorem subBytes_length (l : Bytes) : (subBytes l).length = l.length := by simp [subBytes]
theorem shiftRows_length (l : Bytes) : (shiftRows l).length = l.length := by
  simp [shiftRows, swap]
theorem mixColumns_length (l : Bytes) (h : l.length = 16) : (mixColumns l).length = 16 := by
  obtain ⟨a0, a1, a2, a3, a4, a5, a6, a7, a8, a9, a10, a11, a12, a13, a14, a15, rfl⟩ := exists16 l h
  rw [mixColumns_explicit]; simp [mixColumn_length]
theorem addRoundKey_length (sch l : Bytes) (round : Nat) (hs : 16 * (round + 1) ≤ sch.length)
    (h : l.length = 16) : (addRoundKey sch l round).length = 16 := by
  simp [addRoundKey, h, roundKey_length sch round hs]

attribute [local irreducible] mixColumns shiftRows subBytes addRoundKey

theorem rounds_inj (sch : Bytes) (rs : List Nat) (hs : ∀ r ∈ rs, 16 * (r + 1) ≤ sch.length) :
    ∀ (l l' : Bytes), l.length = 16 → l'.length = 16 →
    let f := fun st round => addRoundKey sch (mixColumns (shiftRows (subBytes st))) round
    (rs.foldl f l).length = 16 ∧ (rs.foldl f l = rs.foldl f l' → l = l') := by
  induction rs with
  | nil => intro l l' h h'; exact ⟨h, fun e => e⟩
  | cons r rs ih =>
    intro l l' h h'
    have hr := hs r (by simp)
    have k1 : (mixColumns (shiftRows (subBytes l))).length = 16 :=
      mixColumns_length _ (by rw [shiftRows_length, subBytes_length, h])
    have k2 : (mixColumns (shiftRows (subBytes l'))).length = 16 :=
      mixColumns_length _ (by rw [shiftRows_length, subBytes_length, h'])
    have := ih (fun r h => hs r (by simp [h])) (addRoundKey sch (mixColumns (shiftRows (subBytes l))) r)
      (addRoundKey sch (mixColumns (shiftRows (subBytes l'))) r)
      (addRoundKey_length _ _ _ hr k1) (addRoundKey_length _ _ _ hr k2)
    refine ⟨this.1, fun e => ?_⟩
    have e1 := addRoundKey_inj sch (mixColumns (shiftRows (subBytes l))) (mixColumns (shiftRows (subBytes l')))
      r hr k1 k2 (this.2 e)
    have e2 := mixColumns_inj (shiftRows (subBytes l)) (shiftRows (subBytes l'))
      (by rw [shiftRows_length, subBytes_length, h]) (by rw [shiftRows_length, subBytes_length, h']) e1
    have e3 := shiftRows_inj (subBytes l) (subBytes l') (by rw [subBytes_length, h])
      (by rw [subBytes_length, h']) e2
    exact subBytes_inj l l' e3

theorem permute_inj (nk : Nat) (sch l l' : Bytes) (hs : sch.length = 16 * (nk + 6 + 1))
    (h : l.length = 16) (h' : l'.length = 16) :
    (permute nk sch l).length = 16 ∧ (permute nk sch l = permute nk sch l' → l = l') := by
  have k0 := addRoundKey_length sch l 0 (by omega) h
  have k0' := addRoundKey_length sch l' 0 (by omega) h'
  have hr := rounds_inj sch (List.range' 1 (nk + 6 - 1)) (by
    intro r hr; rw [List.mem_range'_1] at hr; omega) _ _ k0 k0'
  have hr' := rounds_inj sch (List.range' 1 (nk + 6 - 1)) (by
    intro r hr; rw [List.mem_range'_1] at hr; omega) _ _ k0' k0
  unfold permute
  simp only
  refine ⟨addRoundKey_length _ _ _ (by omega) (by rw [shiftRows_length, subBytes_length]; exact hr.1), fun e => ?_⟩
  have e := addRoundKey_inj _ _ _ (nk + 6) (by omega) (by rw [shiftRows_length, subBytes_length]; exact hr.1)
    (by rw [shiftRows_length, subBytes_length]; exact hr'.1) e
  have e := shiftRows_inj _ _ (by rw [subBytes_length]; exact hr.1) (by rw [subBytes_length]; exact hr'.1) e
  have e := hr.2 (subBytes_inj _ _ e)
  exact addRoundKey_inj _ _ _ 0 (by omega) h h' e

/-- The 16-byte blocks. -/
abbrev Block := { l : Bytes // l.length = 16 }

instance : Finite U8 := Finite.of_injective BitVec.toFin (fun _ _ h => BitVec.eq_of_toFin_eq h)

instance : Finite Block :=
  Finite.of_injective (fun l : Block => fun i : Fin 16 => l.val.getD i.val 0) (by
    intro a b h
    apply Subtype.ext
    apply List.ext_getElem (by rw [a.2, b.2])
    intro i h1 h2
    have := congrFun h ⟨i, by rw [← a.2]; exact h1⟩
    simp only [List.getD_eq_getElem?_getD, List.getElem?_eq_getElem h1, List.getElem?_eq_getElem h2] at this
    exact this)

theorem permute_bij (nk : Nat) (sch : Bytes) (hs : sch.length = 16 * (nk + 6 + 1)) (y : Bytes)
    (hy : y.length = 16) : ∃ x, x.length = 16 ∧ permute nk sch x = y := by
  let f : Block → Block := fun l => ⟨permute nk sch l.val, (permute_inj nk sch l.val l.val hs l.2 l.2).1⟩
  have hf : Function.Injective f := by
    intro a b h
    exact Subtype.ext ((permute_inj nk sch a.val b.val hs a.2 b.2).2 (congrArg Subtype.val h))
  obtain ⟨x, hx⟩ := (Finite.injective_iff_surjective.mp hf) ⟨y, hy⟩
  exact ⟨x.1, x.2, congrArg Subtype.val hx⟩

end CryptoPure.Proofs.Aes
