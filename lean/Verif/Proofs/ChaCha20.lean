import Verif.Proofs.Basic
import Verif.Model.ChaCha20
import Verif.Spec.ChaCha20

/-! ChaCha20: the code's block function is RFC 8439's, and the stream walks through the blocks. -/

namespace CryptoPure.Proofs.ChaCha20
open CryptoPure.Model.ChaCha20

abbrev S := Spec.ChaCha20.State

/-- The matrix as a row-major array. -/
def flat (s : S) : List U32 :=
  [s 0 0, s 0 1, s 0 2, s 0 3, s 1 0, s 1 1, s 1 2, s 1 3, s 2 0, s 2 1, s 2 2, s 2 3, s 3 0, s 3 1, s 3 2, s 3 3]

/-- Values of a quarter round on four words. -/
abbrev q := Spec.ChaCha20.quarterRound

theorem quarterRound_eq (st : List U32) (i j k l : Nat) : quarterRound st i j k l =
    (((st.set i (q (st.getD i 0) (st.getD j 0) (st.getD k 0) (st.getD l 0) 0)).set j
      (q (st.getD i 0) (st.getD j 0) (st.getD k 0) (st.getD l 0) 1)).set k
      (q (st.getD i 0) (st.getD j 0) (st.getD k 0) (st.getD l 0) 2)).set l
      (q (st.getD i 0) (st.getD j 0) (st.getD k 0) (st.getD l 0) 3) := rfl

attribute [local irreducible] Spec.ChaCha20.quarterRound

theorem columns_eq (s : S) :
    quarterRound (quarterRound (quarterRound (quarterRound (flat s) 0 4 8 12) 1 5 9 13) 2 6 10 14) 3 7 11 15 =
      flat (Spec.ChaCha20.columnRound s) := by
  simp only [quarterRound_eq, flat, List.getD_cons_zero, List.getD_cons_succ, List.set_cons_zero,
    List.set_cons_succ]
  rfl

theorem diagonals_eq (s : S) :
    quarterRound (quarterRound (quarterRound (quarterRound (flat s) 0 5 10 15) 1 6 11 12) 2 7 8 13) 3 4 9 14 =
      flat (Spec.ChaCha20.diagonalRound s) := by
  simp only [quarterRound_eq, flat, List.getD_cons_zero, List.getD_cons_succ, List.set_cons_zero,
    List.set_cons_succ]
  rfl

theorem innerBlock_eq (s : S) :
    innerBlock (flat s) = flat (Spec.ChaCha20.diagonalRound (Spec.ChaCha20.columnRound s)) := by
  unfold innerBlock
  simp only [columns_eq, diagonals_eq]

theorem rounds_eq (l : List Nat) (s : S) :
    l.foldl (fun s _ => innerBlock s) (flat s) = flat (Spec.ChaCha20.doubleRounds l.length s) := by
  induction l generalizing s with
  | nil => rfl
  | cons a l ih => rw [List.foldl_cons, innerBlock_eq, ih]; rfl

theorem chunks4 (b : Bytes) (n : Nat) (h : b.length = 4 * n) :
    chunks 4 b = (List.range n).map (fun i => (b.drop (4 * i)).take 4) := by
  induction n generalizing b with
  | zero => rw [List.length_eq_zero_iff.mp h]; rfl
  | succ n ih =>
    have hne : b ≠ [] := by intro e; subst e; simp at h
    rw [chunks_of_ne_nil (by omega) hne, ih _ (by rw [List.length_drop]; omega), List.range_succ_eq_map,
      List.map_cons, List.map_map]
    congr 1
    apply List.map_congr_left
    intro i _
    simp only [Function.comp, List.drop_drop]
    congr 2; omega

theorem readWords_eq (b : Bytes) (n : Nat) (h : b.length = 4 * n) :
    readWords b = (List.range n).map (Spec.ChaCha20.word b) := by
  unfold readWords
  rw [chunks4 b n h, List.map_map]
  rfl

theorem setup_eq (key nonce : Bytes) (hk : key.length = 32) (hn : nonce.length = 12) :
    setupState key nonce = flat (Spec.ChaCha20.init key 0 nonce) := by
  unfold setupState
  rw [readWords_eq key 8 hk, readWords_eq nonce 3 hn]
  rfl

attribute [local irreducible] toLE in
theorem serialize_eq (s : S) : serializeBlock (flat s) =
    (List.finRange 4).flatMap fun r => (List.finRange 4).flatMap fun c => toLE 4 (s r c).toNat := by
  unfold serializeBlock flat
  have e : List.finRange 4 = [0, 1, 2, 3] := rfl
  simp only [List.flatMap_cons, List.flatMap_nil, e, List.append_nil, List.append_assoc]

theorem block_eq (key nonce : Bytes) (hk : key.length = 32) (hn : nonce.length = 12) (c : U32) :
    block (setupState key nonce) c = Spec.ChaCha20.block key c nonce := by
  unfold block transformState
  rw [setup_eq key nonce hk hn]
  have e1 : (flat (Spec.ChaCha20.init key 0 nonce)).set 12 c = flat (Spec.ChaCha20.init key c nonce) := rfl
  simp only [e1, rounds_eq, List.length_range]
  unfold Spec.ChaCha20.block
  generalize Spec.ChaCha20.doubleRounds 10 (Spec.ChaCha20.init key c nonce) = w
  have e2 : ∀ r c' , (r, c') ≠ ((3 : Fin 4), (0 : Fin 4)) →
      Spec.ChaCha20.init key 0 nonce r c' = Spec.ChaCha20.init key c nonce r c' := by
    intro r c' h
    match r with
    | 0 => rfl
    | 1 => rfl
    | 2 => rfl
    | 3 =>
      have : c' ≠ 0 := by rintro rfl; exact h rfl
      simp [Spec.ChaCha20.init, this]
  have e3 : Spec.ChaCha20.init key 0 nonce 3 0 = 0 := rfl
  have e4 : Spec.ChaCha20.init key c nonce 3 0 = c := rfl
  have e5 : (List.zipWith (· + ·) (flat w) (flat (Spec.ChaCha20.init key 0 nonce))).set 12
      ((List.zipWith (· + ·) (flat w) (flat (Spec.ChaCha20.init key 0 nonce))).getD 12 0 + c) =
      flat (fun r c' => w r c' + Spec.ChaCha20.init key c nonce r c') := by
    simp only [flat, List.zipWith_cons_cons, List.zipWith_nil_left, List.set_cons_succ, List.set_cons_zero,
      List.getD_cons_succ, List.getD_cons_zero]
    rw [e3, e4, e2 0 0 (by decide), e2 0 1 (by decide), e2 0 2 (by decide), e2 0 3 (by decide),
      e2 1 0 (by decide), e2 1 1 (by decide), e2 1 2 (by decide), e2 1 3 (by decide),
      e2 2 0 (by decide), e2 2 1 (by decide), e2 2 2 (by decide), e2 2 3 (by decide),
      e2 3 1 (by decide), e2 3 2 (by decide), e2 3 3 (by decide),
      show w 3 0 + (0 : U32) = w 3 0 from BitVec.add_zero _]
  rw [e5]
  exact serialize_eq (fun r c' => w r c' + Spec.ChaCha20.init key c nonce r c')

theorem spec_block_length (key : Bytes) (c : U32) (nonce : Bytes) : (Spec.ChaCha20.block key c nonce).length = 64 := by
  simp [Spec.ChaCha20.block, List.finRange]

/-! ### The stream -/

variable (key nonce : Bytes)

/-- Byte `n` of the RFC keystream that starts at counter 0; the counter is a 32-bit word. -/
def ksByte (n : Nat) : U8 := (Spec.ChaCha20.block key (BitVec.ofNat 32 (n / 64)) nonce).getD (n % 64) 0

/-- The stream object after `n` bytes. -/
def streamAt (n : Nat) : Stream :=
  { chacha20 := setupState key nonce
    counter := BitVec.ofNat 32 ((n - 1) / 64)
    block := block (setupState key nonce) (BitVec.ofNat 32 ((n - 1) / 64))
    blockIndex := BitVec.ofNat 8 (if n = 0 then 0 else (n - 1) % 64 + 1) }

attribute [local irreducible] CryptoPure.Model.ChaCha20.block setupState Spec.ChaCha20.block

theorem new_eq (hk : key.length = 32) (hn : nonce.length = 12) :
    Stream.new key nonce = some (streamAt key nonce 0) := by
  unfold Stream.new new
  simp only [hk, hn]
  rfl

theorem new_none (h : ¬ (key.length = 32 ∧ nonce.length = 12)) : new key nonce = none := by
  unfold new
  by_contra hne
  obtain ⟨u, hu⟩ := Option.ne_none_iff_exists'.mp hne
  simp only [Option.bind_eq_bind, Option.bind_eq_some_iff, assert_eq_some, beq_iff_eq] at hu
  obtain ⟨_, h1, _, h2, _⟩ := hu
  exact h ⟨h1.symm, h2.symm⟩

theorem next_wrap (m : Mode) (s : Stream) (h : s.blockIndex = 64) (c : U32) (hc : addC m s.counter 1 = some c)
    (b : U8) (hb : (block s.chacha20 c)[0]? = some b) :
    s.next m = some (b, { s with counter := c, block := block s.chacha20 c, blockIndex := 1 }) := by
  have h1 : addC m (0 : U8) 1 = some 1 := addC_ok m 0 1 (by decide)
  unfold Stream.next
  rw [if_pos h, hc]
  change ((block s.chacha20 c)[0]?).bind _ = _
  rw [hb, Option.bind_some]
  change (addC m (0 : U8) 1).bind _ = _
  rw [h1]
  rfl

theorem next_plain (m : Mode) (s : Stream) (h : s.blockIndex ≠ 64) (i : U8) (hi : addC m s.blockIndex 1 = some i)
    (b : U8) (hb : s.block[s.blockIndex.toNat]? = some b) :
    s.next m = some (b, { s with blockIndex := i }) := by
  unfold Stream.next
  rw [if_neg h]
  change (s.block[s.blockIndex.toNat]?).bind _ = _
  rw [hb, Option.bind_some, hi]
  rfl

theorem next_ok (hk : key.length = 32) (hn : nonce.length = 12) (m : Mode) (n : Nat)
    (h : m = .release ∨ n < 2 ^ 38) :
    (streamAt key nonce n).next m = some (ksByte key nonce n, streamAt key nonce (n + 1)) := by
  have hidx : ∀ c : U32, ∀ i, i < 64 → (block (setupState key nonce) c)[i]? =
      some ((Spec.ChaCha20.block key c nonce).getD i 0) := by
    intro c i hi
    rw [block_eq key nonce hk hn, List.getElem?_eq_getElem (by rw [spec_block_length]; exact hi),
      List.getD_eq_getElem?_getD, List.getElem?_eq_getElem (by rw [spec_block_length]; exact hi)]
    rfl
  have hadd : ∀ i : Nat, i < 64 → addC m (BitVec.ofNat 8 i) 1 = some (BitVec.ofNat 8 (i + 1)) := by
    intro i hi
    rw [addC_ok _ _ _ (by rw [BitVec.toNat_ofNat]; change i % 256 + 1 < 256; omega)]
    congr 1
    rw [BitVec.ofNat_add]; rfl
  have hto : ∀ i : Nat, i < 64 → (BitVec.ofNat 8 i).toNat = i := by
    intro i hi; rw [BitVec.toNat_ofNat]; omega
  by_cases h64 : n ≠ 0 ∧ n % 64 = 0
  · -- a new block
    obtain ⟨hn0, hmod⟩ := h64
    have hbi : (streamAt key nonce n).blockIndex = 64 := by
      simp only [streamAt, if_neg hn0]
      rw [show (n - 1) % 64 + 1 = 64 by omega]; rfl
    have hctr : addC m (streamAt key nonce n).counter 1 = some (BitVec.ofNat 32 (n / 64)) := by
      have e : BitVec.ofNat 32 ((n - 1) / 64) + 1 = BitVec.ofNat 32 (n / 64) := by
        rw [show n / 64 = (n - 1) / 64 + 1 by omega, BitVec.ofNat_add]; rfl
      rcases h with h | h
      · subst h; rw [addC_release]; exact congrArg some e
      · rw [addC_ok _ _ _ (by
          simp only [streamAt, BitVec.toNat_ofNat]
          change (n - 1) / 64 % 2 ^ 32 + 1 < 2 ^ 32; omega)]
        exact congrArg some e
    rw [next_wrap m _ hbi _ hctr _ (hidx _ 0 (by omega))]
    have e1 : ksByte key nonce n = (Spec.ChaCha20.block key (BitVec.ofNat 32 (n / 64)) nonce).getD 0 0 := by
      unfold ksByte; rw [hmod]
    have e2 : streamAt key nonce (n + 1) =
        { chacha20 := setupState key nonce, counter := BitVec.ofNat 32 (n / 64),
          block := block (setupState key nonce) (BitVec.ofNat 32 (n / 64)), blockIndex := 1 } := by
      unfold streamAt
      rw [if_neg (by omega : ¬ n + 1 = 0), Nat.add_sub_cancel, hmod]
      rfl
    rw [e1, e2]
    rfl
  · have hbi : (streamAt key nonce n).blockIndex = BitVec.ofNat 8 (n % 64) := by
      simp only [streamAt]
      split
      · rename_i e; subst e; rfl
      · congr 1; omega
    have hne : (streamAt key nonce n).blockIndex ≠ 64 := by
      intro e
      have := congrArg BitVec.toNat e
      rw [hbi, BitVec.toNat_ofNat] at this
      change n % 64 % 256 = 64 at this
      omega
    have hc : (n - 1) / 64 = n / 64 := by omega
    rw [next_plain m _ hne _ (by rw [hbi]; exact hadd _ (by omega)) _
      (by rw [hbi, hto _ (by omega)]; exact hidx _ _ (by omega)), hc]
    have e2 : streamAt key nonce (n + 1) =
        { chacha20 := setupState key nonce, counter := BitVec.ofNat 32 (n / 64),
          block := block (setupState key nonce) (BitVec.ofNat 32 (n / 64)),
          blockIndex := BitVec.ofNat 8 (n % 64 + 1) } := by
      unfold streamAt
      rw [if_neg (by omega : ¬ n + 1 = 0), Nat.add_sub_cancel]
    rw [e2]
    unfold streamAt
    rw [hc]
    rfl

theorem next_overflow (n : Nat) (hn : n = 2 ^ 38) : (streamAt key nonce n).next .debug = none := by
  unfold Stream.next
  have hbi : (streamAt key nonce n).blockIndex = 64 := by
    simp only [streamAt]
    rw [if_neg (by omega), show (n - 1) % 64 + 1 = 64 by omega]; rfl
  have hc : ¬ ((streamAt key nonce n).counter.toNat + (1 : U32).toNat < 2 ^ 32) := by
    simp only [streamAt, BitVec.toNat_ofNat]
    change ¬ ((n - 1) / 64 % 2 ^ 32 + 1 < 2 ^ 32)
    omega
  rw [if_pos hbi, addC_debug_overflow _ _ hc]
  rfl

/-- The RFC keystream from byte `n` on, `k` bytes. -/
def ks (n k : Nat) : Bytes := (List.range k).map (fun i => ksByte key nonce (n + i))

theorem ks_succ (n k : Nat) : ks key nonce n (k + 1) = ksByte key nonce n :: ks key nonce (n + 1) k := by
  unfold ks
  rw [List.range_succ_eq_map, List.map_cons, List.map_map]
  congr 1
  apply List.map_congr_left
  intro i _
  simp only [Function.comp]; congr 1; omega

@[simp] theorem ks_length (n k : Nat) : (ks key nonce n k).length = k := by simp [ks]

theorem processLoop_ok (hk : key.length = 32) (hn : nonce.length = 12) (m : Mode) (input : Bytes) (n : Nat)
    (h : m = .release ∨ n + input.length ≤ 2 ^ 38) :
    (streamAt key nonce n).processLoop m input =
      some (xorBytes input (ks key nonce n input.length), streamAt key nonce (n + input.length)) := by
  induction input generalizing n with
  | nil => simp [Stream.processLoop, xorBytes]
  | cons z zs ih =>
    rw [Stream.processLoop, next_ok key nonce hk hn m n (h.imp id (by simp; omega))]
    simp only [Option.bind_eq_bind, Option.bind_some]
    rw [ih (n + 1) (h.imp id (by simp; omega))]
    simp only [Option.bind_some, List.length_cons]
    rw [ks_succ, show n + 1 + zs.length = n + (zs.length + 1) by omega, BitVec.xor_comm]
    rfl

theorem processLoop_overflow (hk : key.length = 32) (hn : nonce.length = 12) (input : Bytes) (n : Nat)
    (hn' : n ≤ 2 ^ 38) (h : 2 ^ 38 < n + input.length) :
    (streamAt key nonce n).processLoop .debug input = none := by
  induction input generalizing n with
  | nil => simp at h; omega
  | cons z zs ih =>
    rcases Nat.lt_or_ge n (2 ^ 38) with hlt | hge
    · rw [Stream.processLoop, next_ok key nonce hk hn _ n (.inr hlt)]
      simp only [Option.bind_eq_bind, Option.bind_some]
      rw [ih (n + 1) (by omega) (by simp at h; omega)]
      rfl
    · have : n = 2 ^ 38 := by omega
      rw [Stream.processLoop, next_overflow key nonce n this]
      rfl

end CryptoPure.Proofs.ChaCha20
