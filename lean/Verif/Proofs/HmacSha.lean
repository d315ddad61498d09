import Verif.Proofs.HmacIdeal
import Verif.Proofs.ShaWith
import Verif.Proofs.Hmac
import Verif.Spec.Hmac
import Verif.Spec.MacGame
import Verif.Props.HkdfPrf
import Verif.Props.LengthExtension

/-! # HMAC of src/hmac.rs over the hash of src/sha2.rs with any compression function, in terms of Verif/Proofs/HmacIdeal.lean -/

namespace CryptoPure.Proofs.HmacSha
open CryptoPure.Model Spec.Sha2 Game HmacIdeal Props

/-- Blocks. -/
abbrev Blk (B : Nat) := {b : Bytes // b.length = B}

/-- Compression functions. -/
abbrev Fn (w B : Nat) := Oct w × Blk B → Oct w

/-- As a function on all byte strings. -/
def fn {w B : Nat} (F : Fn w B) : Oct w → Bytes → Oct w := fun H b => if h : b.length = B then F (H, ⟨b, h⟩) else H

/-- The bytes of a chaining value. -/
def bytesOf {w : Nat} (H : Oct w) : Bytes := H.toList.flatMap fun x => toBE (w / 8) x.toNat

theorem bytesOf_length {w : Nat} (H : Oct w) : (bytesOf H).length = 8 * (w / 8) := by
  unfold bytesOf
  simp [List.length_flatMap, Oct.toList]
  omega

/-- The first `n` bytes of a chaining value. -/
def out {w : Nat} (n : Nat) (hn : n ≤ 8 * (w / 8)) (H : Oct w) : {d : Bytes // d.length = n} :=
  ⟨(bytesOf H).take n, by rw [List.length_take, bytesOf_length]; omega⟩

section
variable {w : Nat} (A : Alg w)

/-- The padded text. -/
def padded (m : Bytes) : Bytes := m ++ padding A (A.blockBytes + m.length) (8 * (A.blockBytes + m.length))

theorem padded_length (hb : A.lenBytes + 1 ≤ A.blockBytes) (m : Bytes) : (padded A m).length % A.blockBytes = 0 := by
  unfold padded padding
  rw [Nat.add_mod_left]
  simp only [List.length_append, toBE_length, zeros_length, List.length_singleton]
  exact MerkleDamgard.pad_arith _ _ _ hb

/-- The blocks of the padded text. -/
def blocksOf (hb : A.lenBytes + 1 ≤ A.blockBytes) (m : Bytes) : List (Blk A.blockBytes) :=
  (chunks A.blockBytes (padded A m)).pmap Subtype.mk (chunks_mem_length (by omega) (padded_length A hb m))

theorem blocksOf_map (hb : A.lenBytes + 1 ≤ A.blockBytes) (m : Bytes) : (blocksOf A hb m).map Subtype.val = chunks A.blockBytes (padded A m) := by
  unfold blocksOf
  rw [List.map_pmap]
  simp

/-- The number of blocks after the first for a text of `l` bytes. -/
def cost (l : Nat) : Nat := (l + A.lenBytes) / A.blockBytes + 1

theorem blocksOf_length (hb : A.lenBytes + 1 ≤ A.blockBytes) (m : Bytes) : (blocksOf A hb m).length = cost A m.length := by
  have h := padded_length A hb m
  have hm := chunks_mem_length (n := A.blockBytes) (by omega) h
  have hf := congrArg List.length (chunks_flatten (n := A.blockBytes) (by omega) (padded A m))
  have e : (blocksOf A hb m).length = (chunks A.blockBytes (padded A m)).length := by rw [← blocksOf_map A hb, List.length_map]
  rw [e]
  have hlen : (chunks A.blockBytes (padded A m)).flatten.length = A.blockBytes * (chunks A.blockBytes (padded A m)).length := by
    rw [List.length_flatten, List.map_congr_left (g := fun _ => A.blockBytes) (fun c hc => hm c hc)]
    simp [Nat.mul_comm]
  rw [hlen] at hf
  have hp : (padded A m).length = m.length + (1 + (2 * A.blockBytes - A.lenBytes - 1 - m.length % A.blockBytes) % A.blockBytes + A.lenBytes) := by
    unfold padded padding
    rw [Nat.add_mod_left]
    simp only [List.length_append, toBE_length, zeros_length, List.length_singleton]
  rw [hp] at hf
  generalize (chunks A.blockBytes (padded A m)).length = c at *
  unfold cost
  have hz := Nat.mod_lt (2 * A.blockBytes - A.lenBytes - 1 - m.length % A.blockBytes) (show 0 < A.blockBytes by omega)
  generalize (2 * A.blockBytes - A.lenBytes - 1 - m.length % A.blockBytes) % A.blockBytes = z at *
  have h1 : (m.length + A.lenBytes) / A.blockBytes = c - 1 := by
    have hc : 1 ≤ c := by
      by_contra h0
      have : c = 0 := by omega
      subst this
      simp at hf
      omega
    refine Nat.div_eq_of_lt_le ?_ ?_
    · rw [Nat.mul_comm, Nat.mul_sub, Nat.mul_one]; omega
    · rw [show c - 1 + 1 = c by omega, Nat.mul_comm]; omega
  rw [h1]
  have hc : 1 ≤ c := by
    by_contra h0
    have : c = 0 := by omega
    subst this
    simp at hf
    omega
  omega

theorem padded_inj (hl : 8 ≤ A.lenBytes) {m m' : Bytes} (h1 : A.blockBytes + m.length < 2 ^ 61) (h2 : A.blockBytes + m'.length < 2 ^ 61)
    (h : padded A m = padded A m') : m = m' := by
  unfold padded padding at h
  rw [← List.append_assoc m, ← List.append_assoc m'] at h
  obtain ⟨h3, h4⟩ := List.append_inj' h (by simp)
  have h256 : 256 ^ 8 ≤ 256 ^ A.lenBytes := Nat.pow_le_pow_right (by omega) hl
  have := toBE_inj (by omega) (by omega) h4
  exact (List.append_inj h3 (by omega)).1

theorem blocksOf_inj (hb : A.lenBytes + 1 ≤ A.blockBytes) (hl : 8 ≤ A.lenBytes) {m m' : Bytes} (h1 : A.blockBytes + m.length < 2 ^ 61)
    (h2 : A.blockBytes + m'.length < 2 ^ 61) (h : blocksOf A hb m = blocksOf A hb m') : m = m' := by
  have := congrArg (List.map Subtype.val) h
  rw [blocksOf_map, blocksOf_map] at this
  have := congrArg List.flatten this
  rw [chunks_flatten (by omega), chunks_flatten (by omega)] at this
  exact padded_inj A hl h1 h2 this

theorem foldl_fn (F : Fn w A.blockBytes) (bs : List (Blk A.blockBytes)) (H : Oct w) :
    (bs.map Subtype.val).foldl (fn F) H = chain F H bs := by
  induction bs generalizing H with
  | nil => rfl
  | cons b bs ih =>
    rw [List.map_cons, List.foldl_cons, ih]
    show _ = chain F (F (H, b)) bs
    congr 1
    unfold fn
    rw [dif_pos b.2]

/-- The hash of one block and a text. -/
theorem digestF_block (hb : A.lenBytes + 1 ≤ A.blockBytes) (F : Fn w A.blockBytes) (iv : Oct w) (n : Nat) (hn : n ≤ 8 * (w / 8))
    (a : Blk A.blockBytes) (m : Bytes) :
    digestF A (fn F) iv n (a.1 ++ m) = (out n hn (chain F (F (iv, a)) (blocksOf A hb m))).1 := by
  unfold digestF digestWithF hashBlocksF out
  simp only
  have : a.1 ++ m ++ padding A (a.1 ++ m).length (8 * (a.1 ++ m).length) = a.1 ++ padded A m := by
    unfold padded
    rw [List.length_append, a.2, List.append_assoc]
  rw [this, chunks_append_block (by omega) a.2, List.foldl_cons, ← blocksOf_map A hb, foldl_fn]
  unfold bytesOf
  congr 3
  unfold fn
  rw [dif_pos a.2]

/-- The last block. -/
def lastBlock {n : Nat} (d : {d : Bytes // d.length = n}) (h : A.lenBytes + 1 + n ≤ A.blockBytes) : Blk A.blockBytes :=
  ⟨padded A d.1, by
    have := d.2
    unfold padded padding
    rw [Nat.add_mod_left, Nat.mod_eq_of_lt (a := d.1.length) (by omega)]
    simp only [List.length_append, toBE_length, zeros_length, List.length_singleton]
    rw [show 2 * A.blockBytes - A.lenBytes - 1 - d.1.length = (A.blockBytes - A.lenBytes - 1 - d.1.length) + A.blockBytes by omega,
      Nat.add_mod_right, Nat.mod_eq_of_lt (by omega)]
    omega⟩

theorem blocksOf_digest (hb : A.lenBytes + 1 ≤ A.blockBytes) {n : Nat} (d : {d : Bytes // d.length = n}) (h : A.lenBytes + 1 + n ≤ A.blockBytes) :
    blocksOf A hb d.1 = [lastBlock A d h] := by
  have h1 : (blocksOf A hb d.1).map Subtype.val = [lastBlock A d h].map Subtype.val := by
    rw [blocksOf_map]
    have := (lastBlock A d h).2
    have e : (lastBlock A d h).1 = padded A d.1 := rfl
    rw [List.map_cons, List.map_nil, e]
    rw [e] at this
    exact chunks_singleton (by intro e'; rw [e'] at this; simp at this; omega) (by omega)
  exact List.map_injective_iff.mpr Subtype.val_injective h1

/-- The key block. -/
def keyBlock {B kl : Nat} (h : kl ≤ B) (pad : U8) (k : {k : Bytes // k.length = kl}) : Blk B :=
  ⟨xorBytes (k.1 ++ zeros (B - kl)) (List.replicate B pad), by
    have := k.2
    simp [xorBytes]
    omega⟩

theorem keyBlock_inj {B kl : Nat} (h : kl ≤ B) (pad : U8) : Function.Injective (keyBlock h pad) := by
  intro k k' e
  have e := congrArg Subtype.val e
  unfold keyBlock xorBytes at e
  simp only at e
  have hk := k.2
  have hk' := k'.2
  apply Subtype.ext
  apply List.ext_getElem (by omega)
  intro i h1 h2
  have := congrArg (fun l : Bytes => l[i]?) e
  simp only [List.getElem?_zipWith] at this
  rw [List.getElem?_append_left h1, List.getElem?_append_left h2, List.getElem?_eq_getElem h1, List.getElem?_eq_getElem h2,
    List.getElem?_replicate_of_lt (by omega)] at this
  simpa using this

theorem keyBlock_ne {B kl : Nat} (hB : 0 < B) (h : kl ≤ B) (k : {k : Bytes // k.length = kl}) : keyBlock h 0x36 k ≠ keyBlock h 0x5c k := by
  intro e
  have e := congrArg Subtype.val e
  unfold keyBlock xorBytes at e
  simp only at e
  have hk := k.2
  have := congrArg (fun l : Bytes => l[0]?) e
  have h0 : 0 < (k.1 ++ zeros (B - kl)).length := by simp; omega
  simp only [List.getElem?_zipWith] at this
  rw [List.getElem?_eq_getElem h0, List.getElem?_replicate_of_lt (by omega), List.getElem?_replicate_of_lt (by omega)] at this
  simp only [Option.some.injEq] at this
  have := (BitVec.xor_right_inj _).mp this
  revert this
  decide

variable (iv : Oct w) {n kl N : Nat} (hb : A.lenBytes + 1 ≤ A.blockBytes) (hn : n ≤ 8 * (w / 8)) (hk : kl ≤ A.blockBytes)
  (hnb : A.lenBytes + 1 + n ≤ A.blockBytes)

/-- HMAC over the compression function `F`, in the terms of Verif/Proofs/HmacIdeal.lean. -/
def hmacTag (F : Fn w A.blockBytes) (k : {k : Bytes // k.length = kl}) : Keyed N n :=
  tag iv (keyBlock hk 0x36) (keyBlock hk 0x5c) (fun m : {x : Bytes // x.length ≤ N} => blocksOf A hb m.1) (out n hn)
    (fun d => lastBlock A d hnb) F k

theorem hmac_eq (F : Fn w A.blockBytes) (k : {k : Bytes // k.length = kl}) (m : {x : Bytes // x.length ≤ N}) :
    Spec.hmac (digestF A (fn F) iv n) A.blockBytes k.1 m.1 = (hmacTag A iv hb hn hk hnb F k m).1 := by
  unfold Spec.hmac Spec.hmacKey
  have hkl := k.2
  rw [if_neg (by omega)]
  simp only
  rw [hkl, show xorBytes (k.1 ++ zeros (A.blockBytes - kl)) (List.replicate A.blockBytes 0x36) = (keyBlock hk 0x36 k).1 from rfl,
    show xorBytes (k.1 ++ zeros (A.blockBytes - kl)) (List.replicate A.blockBytes 0x5c) = (keyBlock hk 0x5c k).1 from rfl,
    digestF_block A hb F iv n hn, digestF_block A hb F iv n hn, blocksOf_digest A hb _ hnb]
  rfl

end

/-! ## Chaining values are byte strings -/

theorem bytesOf_inj {w : Nat} (hw : w % 8 = 0) : Function.Injective (bytesOf (w := w)) := by
  obtain ⟨k, rfl⟩ := Nat.dvd_of_mod_eq_zero hw
  intro H H' e
  have h1 := octOf_words k H
  have h2 := octOf_words k H'
  unfold bytesOf at e
  simp only [Nat.mul_div_cancel_left _ (show 0 < 8 by omega)] at e
  rw [← h1, ← h2, e]

theorem card_oct (w : Nat) : Nat.card (Oct w) = 2 ^ (8 * w) := by
  have hbv : Nat.card (BitVec w) = 2 ^ w := by
    rw [Nat.card_eq_of_bijective (BitVec.toFin (w := w)) ⟨fun _ _ h => BitVec.toFin_inj.mp h, fun x => ⟨⟨x⟩, rfl⟩⟩]
    simp
  have e : Oct w ≃ BitVec w × BitVec w × BitVec w × BitVec w × BitVec w × BitVec w × BitVec w × BitVec w :=
    { toFun := fun H => (H.a, H.b, H.c, H.d, H.e, H.f, H.g, H.h)
      invFun := fun p => ⟨p.1, p.2.1, p.2.2.1, p.2.2.2.1, p.2.2.2.2.1, p.2.2.2.2.2.1, p.2.2.2.2.2.2.1, p.2.2.2.2.2.2.2⟩
      left_inv := fun _ => rfl
      right_inv := fun _ => rfl }
  rw [Nat.card_congr e]
  simp only [Nat.card_prod, hbv, ← pow_add]
  congr 1; ring

instance octFinite (w : Nat) : Finite (Oct w) := Nat.finite_of_card_ne_zero (by rw [card_oct]; positivity)

instance (w : Nat) : Nonempty (Oct w) := ⟨⟨0, 0, 0, 0, 0, 0, 0, 0⟩⟩

/-- A chaining value is its first `n` bytes and the rest. -/
noncomputable def splitOct {w : Nat} (hw : w % 8 = 0) (n : Nat) (hn : n ≤ 8 * (w / 8)) :
    Oct w ≃ {d : Bytes // d.length = n} × {d : Bytes // d.length = 8 * (w / 8) - n} :=
  Equiv.ofBijective (fun H => (out n hn H, ⟨(bytesOf H).drop n, by rw [List.length_drop, bytesOf_length]⟩)) (by
    refine Function.Injective.bijective_of_nat_card_le ?_ ?_
    · intro H H' e
      simp only [Prod.mk.injEq] at e
      refine bytesOf_inj hw ?_
      rw [← List.take_append_drop n (bytesOf H), ← List.take_append_drop n (bytesOf H')]
      rw [congrArg Subtype.val e.1 |> fun h => (h : (bytesOf H).take n = (bytesOf H').take n),
        congrArg Subtype.val e.2 |> fun h => (h : (bytesOf H).drop n = (bytesOf H').drop n)]
    · rw [Nat.card_prod, card_digest, card_digest, card_oct, ← pow_add, show (256 : Nat) = 2 ^ 8 from rfl, ← pow_mul]
      refine Nat.pow_le_pow_right (by omega) ?_
      omega)

theorem splitOct_fst {w : Nat} (hw : w % 8 = 0) (n : Nat) (hn : n ≤ 8 * (w / 8)) (H : Oct w) : (splitOct hw n hn H).1 = out n hn H := rfl

theorem prob_out {w : Nat} (hw : w % 8 = 0) (n : Nat) (hn : n ≤ 8 * (w / 8)) (t : {d : Bytes // d.length = n}) :
    prob (fun H : Oct w => out n hn H = t) = 1 / 256 ^ n := by
  have h := prob_equiv (splitOct hw n hn) (fun p => p.1 = t)
  simp only [splitOct_fst] at h
  rw [h, prob_fst (P := fun d => d = t)]
  unfold prob
  rw [card_digest]
  push_cast
  congr 1
  rw [show {k | k = t} = {t} from rfl, Set.ncard_singleton]
  rfl

end CryptoPure.Proofs.HmacSha
