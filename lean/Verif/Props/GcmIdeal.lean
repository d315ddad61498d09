import Verif.Props.GcmMisuse

/-! # C79, C80: GCM over a random function

The source is generic in the block cipher. Here the block cipher is an arbitrary function on blocks, and the claims count the
functions with which the code behaves in a given way. -/

namespace CryptoPure.Props
open CryptoPure.Model CryptoPure.Model.Aes
open Spec.Gcm (bits bytes ghash authBlocks)
open Proofs.GHashUniversal (bits_bytes bytes_bits bits_xor)

attribute [local irreducible] toBE

/-- Functions from blocks to blocks, a block being 128 bits. -/
abbrev BlockFunction := BitVec 128 → BitVec 128

/-- A block cipher object that applies the function it holds. -/
@[reducible] def oracle : BlockCipher where
  State := BlockFunction
  new := fun _ => none
  permute F x := bytes (F (bits x))

theorem oracle_length (F : BlockFunction) (x : Bytes) (_ : x.length = 16) : (oracle.permute F x).length = 16 :=
  Proofs.Gcm.bytes_length _

theorem bytes_xor (x y : BitVec 128) : bytes (x ^^^ y) = xorBytes (bytes x) (bytes y) := by
  have h := Proofs.Gcm.bytes_length x
  have h' := Proofs.Gcm.bytes_length y
  rw [← bytes_bits (xorBytes (bytes x) (bytes y)) (by simp [h, h']), bits_xor _ _ (by rw [h, h']), bits_bytes, bits_bytes]

theorem bits_inj' {a b : Bytes} (ha : a.length = 16) (hb : b.length = 16) (h : bits a = bits b) : a = b := by
  rw [← bytes_bits a ha, h, bytes_bits b hb]

/-- GCTR depends on the block function only through its values on the counters. -/
theorem gctrBlocks_congr {P P' : Bytes → Bytes} {nonce : Bytes} (hn : nonce.length = 12) (x x' : Bytes) (hx : x.length = x'.length) (i : Nat)
    (h : ∀ j, 16 * j < x.length → xorBytes ((x'.drop (16 * j)).take 16) (P' (nonce ++ toBE 4 (i + j))) =
      xorBytes ((x.drop (16 * j)).take 16) (P (nonce ++ toBE 4 (i + j)))) :
    Spec.Gcm.gctrBlocks P' (nonce ++ toBE 4 i) (chunks 16 x') = Spec.Gcm.gctrBlocks P (nonce ++ toBE 4 i) (chunks 16 x) := by
  induction hk : x.length using Nat.strongRecOn generalizing x x' i with
  | _ k ih =>
    subst hk
    by_cases h0 : x = []
    · subst h0
      have : x' = [] := List.length_eq_zero_iff.mp (by simpa using hx.symm)
      subst this
      rfl
    · have hpos : 0 < x.length := List.length_pos_iff.mpr h0
      have h0' : x' ≠ [] := by rintro rfl; simp at hx; exact h0 hx
      rw [chunks_of_ne_nil (by omega) h0, chunks_of_ne_nil (by omega) h0', Spec.Gcm.gctrBlocks, Spec.Gcm.gctrBlocks,
        Proofs.Gcm.inc32_ctr _ hn, ih (x.drop 16).length (by simp; omega) (x.drop 16) (x'.drop 16) (by simp [hx]) (i + 1) ?_ rfl]
      · have := h 0 (by omega)
        rw [Nat.mul_zero, List.drop_zero, List.drop_zero, Nat.add_zero] at this
        rw [this]
      · intro j hj
        have := h (j + 1) (by simp at hj; omega)
        rw [List.drop_drop, List.drop_drop, show 16 + 16 * j = 16 * (j + 1) by ring, show i + 1 + j = i + (j + 1) by omega]
        exact this

theorem crypt_congr {P P' : Bytes → Bytes} {nonce : Bytes} (hn : nonce.length = 12) (x x' : Bytes) (hx : x.length = x'.length)
    (h : ∀ j, 16 * j < x.length → xorBytes ((x'.drop (16 * j)).take 16) (P' (nonce ++ toBE 4 (2 + j))) =
      xorBytes ((x.drop (16 * j)).take 16) (P (nonce ++ toBE 4 (2 + j)))) :
    Spec.Gcm.crypt P' nonce x' = Spec.Gcm.crypt P nonce x := by
  unfold Spec.Gcm.crypt Spec.Gcm.gctr
  rw [Proofs.Gcm.J0_eq, Proofs.Gcm.inc32_ctr _ hn]
  exact gctrBlocks_congr hn x x' hx 2 h

theorem xor_mask (a a' K : Bytes) (h : a.length = a'.length) (hK : a.length ≤ K.length) (n : Nat) :
    xorBytes a' (xorBytes K (xorBytes a a' ++ zeros n)) = xorBytes a (K.take (a.length + n)) := by
  apply List.ext_getElem
  · simp; omega
  · intro i h1 h2
    simp only [xorBytes_length, List.length_append, zeros_length] at h1 h2
    simp only [xorBytes, List.getElem_zipWith]
    rw [List.getElem_append_left (by simp; omega), List.getElem_zipWith, List.getElem_take]
    generalize a[i] = p
    generalize a'[i] = q
    generalize K[i] = r
    rw [BitVec.xor_comm p q, ← BitVec.xor_assoc r, BitVec.xor_comm r q, BitVec.xor_assoc q, ← BitVec.xor_assoc q q, BitVec.xor_self,
      BitVec.zero_xor, BitVec.xor_comm]

/-! ## C79 -/

/-- One encryption with two candidate messages. -/
structure Choice where
  nonce : Bytes
  data : Bytes
  msg : Bytes
  msg' : Bytes

/-- Block `j` of the difference of the two messages, padded with zeros. -/
def diffBlock (d : Bytes) (j : Nat) : Bytes :=
  let s := (d.drop (16 * j)).take 16
  s ++ zeros (16 - s.length)

/-- What to add to the block function so that one message looks like the other. -/
def delta (q : Choice) (x : BitVec 128) : BitVec 128 :=
  if (bytes x).take 12 = q.nonce ∧ 2 ≤ beNat ((bytes x).drop 12) then
    bits (diffBlock (xorBytes q.msg q.msg') (beNat ((bytes x).drop 12) - 2)) else 0

theorem diffBlock_length (d : Bytes) (j : Nat) : (diffBlock d j).length = 16 := by
  unfold diffBlock; simp

theorem ctr_parts {nonce : Bytes} (hn : nonce.length = 12) {c : Nat} (hc : c < 2 ^ 32) :
    (bytes (bits (nonce ++ toBE 4 c))).take 12 = nonce ∧ beNat ((bytes (bits (nonce ++ toBE 4 c))).drop 12) = c := by
  rw [bytes_bits _ (by simp [hn]), List.take_left' hn, List.drop_left' hn, beNat_toBE, Nat.mod_eq_of_lt (by omega)]
  exact ⟨rfl, rfl⟩

/-- Adding `delta q` to the function turns the encryption of `q.msg'` into that of `q.msg`. -/
theorem delta_same (q : Choice) (hl : q.msg.length = q.msg'.length) (F : BlockFunction) (m : Mode) (output : Bytes) :
    Model.Gcm.encrypt oracle m (fun x => F x ^^^ delta q x) q.msg' q.nonce q.data output =
      Model.Gcm.encrypt oracle m F q.msg q.nonce q.data output := by
  by_cases hp : Proofs.Gcm.Permitted q.msg q.nonce q.data output ∧ (m = .release ∨ (q.msg.length + 15) / 16 ≤ 2 ^ 32 - 4)
  · have hp' : Proofs.Gcm.Permitted q.msg' q.nonce q.data output ∧ (m = .release ∨ (q.msg'.length + 15) / 16 ≤ 2 ^ 32 - 4) := by
      unfold Proofs.Gcm.Permitted at *
      rw [← hl]; exact hp
    have hn := hp.1.1
    have hz : oracle.permute (fun x => F x ^^^ delta q x) (zeros 16) = oracle.permute F (zeros 16) := by
      show bytes (_ ^^^ _) = bytes _
      have : delta q (bits (zeros 16)) = 0 := by
        unfold delta
        rw [if_neg]
        rintro ⟨-, h⟩
        rw [show zeros 16 = zeros 12 ++ toBE 4 0 by decide +kernel, (ctr_parts (by simp) (by norm_num)).2] at h
        omega
      rw [this]; simp
    have hj : oracle.permute (fun x => F x ^^^ delta q x) (Spec.Gcm.J0 q.nonce) = oracle.permute F (Spec.Gcm.J0 q.nonce) := by
      show bytes (_ ^^^ _) = bytes _
      have : delta q (bits (Spec.Gcm.J0 q.nonce)) = 0 := by
        unfold delta
        rw [if_neg]
        rintro ⟨-, h⟩
        rw [Proofs.Gcm.J0_eq, (ctr_parts hn (by norm_num)).2] at h
        omega
      rw [this]; simp
    rw [Proofs.Gcm.encrypt_ok oracle F _ (fun _ _ => rfl) (oracle_length F) m _ _ _ _ hp.1 hp.2,
      Proofs.Gcm.encrypt_ok oracle _ _ (fun _ _ => rfl) (oracle_length (fun x => F x ^^^ delta q x)) m _ _ _ _ hp'.1 hp'.2]
    have hc : Spec.Gcm.crypt (oracle.permute (fun x => F x ^^^ delta q x)) q.nonce q.msg' =
        Spec.Gcm.crypt (oracle.permute F) q.nonce q.msg := by
      refine crypt_congr hn _ _ hl fun j hj => ?_
      show xorBytes _ (bytes (_ ^^^ _)) = _
      have hb : 2 + j < 2 ^ 32 := by have := hp.1.2.2.1; omega
      obtain ⟨c1, c2⟩ := ctr_parts hn hb
      have hd : delta q (bits (q.nonce ++ toBE 4 (2 + j))) = bits (diffBlock (xorBytes q.msg q.msg') j) := by
        unfold delta
        rw [c1, c2, if_pos ⟨rfl, by omega⟩]
        congr 2; omega
      rw [hd, bytes_xor, bytes_bits _ (diffBlock_length _ _)]
      have hs : ((xorBytes q.msg q.msg').drop (16 * j)).take 16 =
          xorBytes ((q.msg.drop (16 * j)).take 16) ((q.msg'.drop (16 * j)).take 16) := by
        unfold xorBytes
        rw [List.drop_zipWith, List.take_zipWith]
      unfold diffBlock
      simp only [hs]
      rw [xor_mask _ _ _ (by simp [hl]) (by rw [Proofs.Gcm.bytes_length]; simp)]
      rw [List.take_of_length_le (l := bytes _) (by rw [Proofs.Gcm.bytes_length]; simp; omega)]
    rw [hc]
    unfold Spec.Gcm.tag
    rw [hz, Proofs.Gcm.gctr_single _ _ _ (Proofs.Gcm.bytes_length _), Proofs.Gcm.gctr_single _ _ _ (Proofs.Gcm.bytes_length _), hj]
  · rw [Proofs.Gcm.encrypt_none oracle F _ (fun _ _ => rfl) m _ _ _ _ hp,
      Proofs.Gcm.encrypt_none oracle (fun x => F x ^^^ delta q x) _ (fun _ _ => rfl) m]
    unfold Proofs.Gcm.Permitted at *
    rw [← hl]; exact hp

/-- Encryption under `nonce` depends on the function only through the zero block and the blocks that begin with `nonce`. -/
theorem encrypt_local {F F' : BlockFunction} (nonce : Bytes) (hz : F' (bits (zeros 16)) = F (bits (zeros 16)))
    (h : nonce.length = 12 → ∀ c, 1 ≤ c → c < 2 ^ 32 → F' (bits (nonce ++ toBE 4 c)) = F (bits (nonce ++ toBE 4 c))) (m : Mode) (msg data output : Bytes) :
    Model.Gcm.encrypt oracle m F' msg nonce data output = Model.Gcm.encrypt oracle m F msg nonce data output := by
  by_cases hp : Proofs.Gcm.Permitted msg nonce data output ∧ (m = .release ∨ (msg.length + 15) / 16 ≤ 2 ^ 32 - 4)
  · rw [Proofs.Gcm.encrypt_ok oracle F _ (fun _ _ => rfl) (oracle_length F) m _ _ _ _ hp.1 hp.2,
      Proofs.Gcm.encrypt_ok oracle F' _ (fun _ _ => rfl) (oracle_length F') m _ _ _ _ hp.1 hp.2]
    have hc : Spec.Gcm.crypt (oracle.permute F') nonce msg = Spec.Gcm.crypt (oracle.permute F) nonce msg := by
      refine crypt_congr hp.1.1 _ _ rfl fun j hj => ?_
      show xorBytes _ (bytes (F' _)) = xorBytes _ (bytes (F _))
      rw [h hp.1.1 _ (by omega) (by have := hp.1.2.2.1; omega)]
    rw [hc]
    unfold Spec.Gcm.tag
    rw [Proofs.Gcm.gctr_single _ _ _ (Proofs.Gcm.bytes_length _), Proofs.Gcm.gctr_single _ _ _ (Proofs.Gcm.bytes_length _)]
    have e1 : oracle.permute F' (zeros 16) = oracle.permute F (zeros 16) := congrArg bytes hz
    have e2 : oracle.permute F' (Spec.Gcm.J0 nonce) = oracle.permute F (Spec.Gcm.J0 nonce) := by
      rw [Proofs.Gcm.J0_eq]; exact congrArg bytes (h hp.1.1 1 (by omega) (by norm_num))
    rw [e1, e2]
  · rw [Proofs.Gcm.encrypt_none oracle F _ (fun _ _ => rfl) m _ _ _ _ hp,
      Proofs.Gcm.encrypt_none oracle F' _ (fun _ _ => rfl) m _ _ _ _ hp]

theorem delta_zero (q : Choice) : delta q (bits (zeros 16)) = 0 := by
  unfold delta
  rw [if_neg]
  rintro ⟨-, h⟩
  rw [show zeros 16 = zeros 12 ++ toBE 4 0 by decide +kernel, (ctr_parts (by simp) (by norm_num)).2] at h
  omega

theorem delta_other (q : Choice) {nonce : Bytes} (hn : nonce.length = 12) (hne : q.nonce ≠ nonce) {c : Nat} (hc : c < 2 ^ 32) :
    delta q (bits (nonce ++ toBE 4 c)) = 0 := by
  unfold delta
  rw [if_neg]
  rintro ⟨h, -⟩
  exact hne (by rw [← h, (ctr_parts hn hc).1])

/-- All the differences together. -/
def deltas (qs : List Choice) (x : BitVec 128) : BitVec 128 := qs.foldr (fun q acc => delta q x ^^^ acc) 0

theorem deltas_zero (qs : List Choice) : deltas qs (bits (zeros 16)) = 0 := by
  induction qs with
  | nil => rfl
  | cons q qs ih =>
    show delta q _ ^^^ deltas qs _ = 0
    rw [ih, delta_zero]; rfl

theorem deltas_other (qs : List Choice) {nonce : Bytes} (hn : nonce.length = 12) (hne : nonce ∉ qs.map Choice.nonce) {c : Nat}
    (hc : c < 2 ^ 32) : deltas qs (bits (nonce ++ toBE 4 c)) = 0 := by
  induction qs with
  | nil => rfl
  | cons q qs ih =>
    show delta q _ ^^^ deltas qs _ = 0
    rw [List.map_cons, List.mem_cons, not_or] at hne
    rw [ih hne.2, delta_other q hn (fun h => hne.1 h.symm) hc]; rfl

theorem deltas_same (qs : List Choice) (hd : (qs.map Choice.nonce).Nodup) (hl : ∀ q ∈ qs, q.msg.length = q.msg'.length)
    (F : BlockFunction) : ∀ q ∈ qs, ∀ (m : Mode) (output : Bytes),
      Model.Gcm.encrypt oracle m (fun x => F x ^^^ deltas qs x) q.msg' q.nonce q.data output =
        Model.Gcm.encrypt oracle m F q.msg q.nonce q.data output := by
  induction qs with
  | nil => exact fun q hq => absurd hq (by simp)
  | cons q qs ih =>
    rw [List.map_cons, List.nodup_cons] at hd
    intro q' hq' m output
    rcases List.mem_cons.mp hq' with rfl | hq
    · rw [← delta_same q' (hl q' (by simp)) F m output]
      refine encrypt_local _ ?_ ?_ _ _ _ _
      · show F _ ^^^ (delta q' _ ^^^ deltas qs _) = F _ ^^^ delta q' _
        rw [deltas_zero]; simp
      · intro hn c _ hc
        show F _ ^^^ (delta q' _ ^^^ deltas qs _) = F _ ^^^ delta q' _
        rw [deltas_other qs hn hd.1 hc]; simp
    · rw [← ih hd.2 (fun q hq => hl q (by simp [hq])) q' hq m output]
      have hne : q.nonce ≠ q'.nonce := fun h => hd.1 (by rw [h]; exact List.mem_map_of_mem hq)
      refine encrypt_local _ ?_ ?_ _ _ _ _
      · show F _ ^^^ (delta q _ ^^^ deltas qs _) = F _ ^^^ deltas qs _
        rw [delta_zero]; simp
      · intro hn c _ hc
        show F _ ^^^ (delta q _ ^^^ deltas qs _) = F _ ^^^ deltas qs _
        rw [delta_other q hn hne hc]; simp

/-- C79. Encryption over a random function hides messages perfectly: given any number of encryptions under pairwise different
nonces, with two candidate messages of equal length each, there is a permutation of the set of all block functions that turns
the ciphertexts and tags of the one list of messages into those of the other. -/
theorem C79_gcm_hides_messages (qs : List Choice) (hd : (qs.map Choice.nonce).Nodup) (hl : ∀ q ∈ qs, q.msg.length = q.msg'.length) :
    ∃ σ : Equiv.Perm BlockFunction, ∀ F, ∀ q ∈ qs, ∀ (m : Mode) (output : Bytes),
      Model.Gcm.encrypt oracle m (σ F) q.msg' q.nonce q.data output =
        Model.Gcm.encrypt oracle m F q.msg q.nonce q.data output := by
  have inv : Function.Involutive (fun (F : BlockFunction) x => F x ^^^ deltas qs x) := by
    intro F
    funext x
    show F x ^^^ deltas qs x ^^^ deltas qs x = F x
    rw [BitVec.xor_assoc, BitVec.xor_self]; simp
  exact ⟨inv.toPerm, fun F => deltas_same qs hd hl F⟩

/-- C79. So whatever was observed (one result per encryption), it arises from exactly as many functions with the one list of
messages as with the other. -/
theorem C79_gcm_observations (qs : List Choice) (hd : (qs.map Choice.nonce).Nodup) (hl : ∀ q ∈ qs, q.msg.length = q.msg'.length)
    (m : Mode) (buffer : Choice → Bytes) (seen : Choice → Option (Bytes × Bytes)) :
    Set.ncard {F : BlockFunction | ∀ q ∈ qs, Model.Gcm.encrypt oracle m F q.msg q.nonce q.data (buffer q) = seen q} =
      Set.ncard {F : BlockFunction | ∀ q ∈ qs, Model.Gcm.encrypt oracle m F q.msg' q.nonce q.data (buffer q) = seen q} := by
  obtain ⟨σ, hσ⟩ := C79_gcm_hides_messages qs hd hl
  rw [← Set.ncard_image_of_injective _ σ.injective]
  congr 1
  ext G
  simp only [Set.mem_image, Set.mem_ofPred_eq]
  constructor
  · rintro ⟨F, hF, rfl⟩ q hq
    rw [hσ F q hq]; exact hF q hq
  · intro hG
    refine ⟨σ.symm G, fun q hq => ?_, by simp⟩
    rw [← hσ _ q hq, Equiv.apply_symm_apply]
    exact hG q hq

/-- Two messages under one nonce cannot be exchanged independently: nonces must differ. -/
example : ¬ ∃ σ : Equiv.Perm BlockFunction, ∀ F, ∀ q ∈ [Choice.mk (zeros 12) [] [1] [1], ⟨zeros 12, [], [1], [2]⟩], ∀ (m : Mode) (output : Bytes),
    Model.Gcm.encrypt oracle m (σ F) q.msg' q.nonce q.data output = Model.Gcm.encrypt oracle m F q.msg q.nonce q.data output := by
  rintro ⟨σ, h⟩
  have h1 := h (fun _ => 0) _ (List.mem_cons_self ..) .debug [0]
  have h2 := h (fun _ => 0) _ (List.mem_cons_of_mem _ (List.mem_cons_self ..)) .debug [0]
  simp only at h1 h2
  have h3 := h1.trans h2.symm
  have e : ∀ x : Bytes, x.length = 1 → Model.Gcm.encrypt oracle .debug (σ fun _ => 0) x (zeros 12) [] [0] = _ := fun x hx =>
    Proofs.Gcm.encrypt_ok oracle _ _ (fun _ _ => rfl) (oracle_length _) .debug _ _ _ _ ⟨by simp, by simp [hx], by omega, by simp⟩
      (Or.inr (by omega))
  rw [e [1] rfl, e [2] rfl] at h3
  have h4 := congrArg (fun o => o.map Prod.fst) h3
  simp only [Option.map_some, Option.some.injEq, Spec.Gcm.crypt, Spec.Gcm.gctr] at h4
  have : ∀ b : U8, Spec.Gcm.gctrBlocks (oracle.permute (σ fun _ => 0)) (Spec.Gcm.inc32 (Spec.Gcm.J0 (zeros 12))) (chunks 16 [b]) =
      xorBytes [b] (oracle.permute (σ fun _ => 0) (Spec.Gcm.inc32 (Spec.Gcm.J0 (zeros 12)))) := by
    intro b
    rw [show chunks 16 [b] = [[b]] from rfl, Spec.Gcm.gctrBlocks, Spec.Gcm.gctrBlocks, List.append_nil]
  rw [this, this] at h4
  generalize hk : oracle.permute _ _ = k at h4
  have hkl : k.length = 16 := by rw [← hk]; exact Proofs.Gcm.bytes_length _
  match k, hkl with
  | b :: _, _ =>
    simp only [xorBytes, List.zipWith_cons_cons, List.cons.injEq] at h4
    have := h4.1
    simp at this

/-! ## C80 -/

instance : Finite (BitVec 128) := Finite.of_injective BitVec.toFin (fun _ _ h => BitVec.toFin_inj.mp h)

/-- Double counting along an action of the 128-bit strings. -/
theorem count_action {α : Type} [Finite α] (act : BitVec 128 → α → α) (hinv : ∀ δ, Function.Involutive (act δ)) (C A : Set α)
    (hC : ∀ δ, ∀ F ∈ C, act δ F ∈ C) (hA : A ⊆ C) (n : Nat) (h : ∀ F ∈ C, Set.ncard {δ | act δ F ∈ A} ≤ n) :
    A.ncard * 2 ^ 128 ≤ n * C.ncard := by
  classical
  have : Fintype α := Fintype.ofFinite α
  have : Fintype (BitVec 128) := Fintype.ofFinite _
  have hcard : Fintype.card (BitVec 128) = 2 ^ 128 := by
    rw [← Nat.card_eq_fintype_card, Nat.card_eq_of_bijective (BitVec.toFin (w := 128)) ⟨fun _ _ h => BitVec.toFin_inj.mp h, fun x => ⟨⟨x⟩, rfl⟩⟩]
    simp
  have h1 : ∀ δ : BitVec 128, (C.toFinset.filter (fun F => act δ F ∈ A)).card = A.ncard := by
    intro δ
    rw [Set.ncard_eq_toFinset_card']
    refine Finset.card_bij (fun F _ => act δ F) ?_ ?_ ?_
    · intro F hF
      simpa using (Finset.mem_filter.mp hF).2
    · intro F _ G _ e
      exact (hinv δ).injective e
    · intro G hG
      have hG : G ∈ A := by simpa using hG
      refine ⟨act δ G, ?_, hinv δ G⟩
      rw [Finset.mem_filter, Set.mem_toFinset]
      exact ⟨hC δ G (hA hG), by rw [hinv δ G]; exact hG⟩
  have h2 : ∑ δ : BitVec 128, (C.toFinset.filter (fun F => act δ F ∈ A)).card = A.ncard * 2 ^ 128 := by
    rw [Finset.sum_congr rfl (fun δ _ => h1 δ), Finset.sum_const, Finset.card_univ, hcard, smul_eq_mul, mul_comm]
  have h3 : ∑ δ : BitVec 128, (C.toFinset.filter (fun F => act δ F ∈ A)).card =
      ∑ F ∈ C.toFinset, (Finset.univ.filter (fun δ => act δ F ∈ A)).card := by
    simp only [Finset.card_filter]
    exact Finset.sum_comm
  rw [← h2, h3]
  calc ∑ F ∈ C.toFinset, (Finset.univ.filter (fun δ => act δ F ∈ A)).card ≤ ∑ F ∈ C.toFinset, n := by
        refine Finset.sum_le_sum fun F hF => ?_
        have := h F (by simpa using hF)
        rwa [Set.ncard_eq_toFinset_card', Set.toFinset_ofPred] at this
    _ = n * C.ncard := by rw [Finset.sum_const, smul_eq_mul, mul_comm, Set.ncard_eq_toFinset_card']

/-- An encryption that took place: arguments and results. -/
structure Sent where
  nonce : Bytes
  data : Bytes
  msg : Bytes
  buffer : Bytes
  ct : Bytes
  tag : Bytes

/-- The block functions with which those encryptions have those results. -/
def explains (m : Mode) (qs : List Sent) : Set BlockFunction :=
  {F | ∀ q ∈ qs, Model.Gcm.encrypt oracle m F q.msg q.nonce q.data q.buffer = some (q.ct, q.tag)}

/-- The block functions with which `decrypt` accepts. -/
def accepts (m : Mode) (nonce data ct t : Bytes) : Set BlockFunction :=
  {F | ∃ buf out, Model.Gcm.decrypt oracle m F ct nonce data t buf = some (out, true)}

theorem accepts_tag {m : Mode} {nonce data ct t : Bytes} {F : BlockFunction} (h : F ∈ accepts m nonce data ct t) :
    nonce.length = 12 ∧ t = Spec.Gcm.tag (oracle.permute F) nonce data ct := by
  obtain ⟨buf, out, h⟩ := h
  by_cases hp : Proofs.Gcm.Permitted ct nonce data buf
  · rw [Proofs.Gcm.decrypt_eq oracle F _ (fun _ _ => rfl) (oracle_length F) m ct nonce data t buf hp] at h
    refine ⟨hp.1, ?_⟩
    by_contra ht
    rw [if_neg ht] at h
    cases h
  · rw [Proofs.Gcm.decrypt_none oracle F m ct nonce data t buf hp] at h
    cases h

theorem bits_tag' (F : BlockFunction) (nonce a c : Bytes) (hn : nonce.length = 12) :
    bits (Spec.Gcm.tag (oracle.permute F) nonce a c) = ghash (F (bits (zeros 16))) (authBlocks a c) ^^^ F (bits (Spec.Gcm.J0 nonce)) := by
  rw [bits_tag _ (oracle_length F) nonce a c hn]
  show ghash (bits (bytes _)) _ ^^^ bits (bytes _) = _
  rw [bits_bytes, bits_bytes]

theorem sent_facts {m : Mode} {F : BlockFunction} {q : Sent}
    (h : Model.Gcm.encrypt oracle m F q.msg q.nonce q.data q.buffer = some (q.ct, q.tag)) :
    Proofs.Gcm.Permitted q.msg q.nonce q.data q.buffer ∧ (m = .release ∨ (q.msg.length + 15) / 16 ≤ 2 ^ 32 - 4) ∧
      q.ct = Spec.Gcm.crypt (oracle.permute F) q.nonce q.msg ∧ q.tag = Spec.Gcm.tag (oracle.permute F) q.nonce q.data q.ct := by
  by_cases hp : Proofs.Gcm.Permitted q.msg q.nonce q.data q.buffer ∧ (m = .release ∨ (q.msg.length + 15) / 16 ≤ 2 ^ 32 - 4)
  · exact ⟨hp.1, hp.2, C19_encrypt_any_cipher oracle m F (oracle_length F) _ _ _ _ _ _ h⟩
  · rw [Proofs.Gcm.encrypt_none oracle F _ (fun _ _ => rfl) m _ _ _ _ hp] at h
    cases h

/-- If the keystream is unchanged and the tag equation still holds, the encryption has the same result. -/
theorem sent_of {m : Mode} {F F' : BlockFunction} {q : Sent}
    (h : Model.Gcm.encrypt oracle m F q.msg q.nonce q.data q.buffer = some (q.ct, q.tag))
    (hc : ∀ c, 2 ≤ c → c < 2 ^ 32 → F' (bits (q.nonce ++ toBE 4 c)) = F (bits (q.nonce ++ toBE 4 c)))
    (ht : ghash (F' (bits (zeros 16))) (authBlocks q.data q.ct) ^^^ F' (bits (Spec.Gcm.J0 q.nonce)) =
      ghash (F (bits (zeros 16))) (authBlocks q.data q.ct) ^^^ F (bits (Spec.Gcm.J0 q.nonce))) :
    Model.Gcm.encrypt oracle m F' q.msg q.nonce q.data q.buffer = some (q.ct, q.tag) := by
  obtain ⟨hp, hm, e1, e2⟩ := sent_facts h
  rw [Proofs.Gcm.encrypt_ok oracle F' _ (fun _ _ => rfl) (oracle_length F') m _ _ _ _ hp hm]
  have e3 : Spec.Gcm.crypt (oracle.permute F') q.nonce q.msg = q.ct := by
    rw [e1]
    refine crypt_congr hp.1 _ _ rfl fun j hj => ?_
    show xorBytes _ (bytes (F' _)) = xorBytes _ (bytes (F _))
    rw [hc _ (by omega) (by have := hp.2.2.1; omega)]
  rw [e3]
  congr 2
  rw [e2]
  refine bits_inj' (tag_length _ (oracle_length F') _ _ _ hp.1) (tag_length _ (oracle_length F) _ _ _ hp.1) ?_
  rw [bits_tag' F' _ _ _ hp.1, bits_tag' F _ _ _ hp.1, ht]

/-- Change of the masks that compensates a change of the hash key from `h` to `h'`. -/
def remask (qs : List Sent) (h h' x : BitVec 128) : BitVec 128 :=
  match qs.find? (fun q => decide (bits (Spec.Gcm.J0 q.nonce) = x)) with
  | some q => ghash h (authBlocks q.data q.ct) ^^^ ghash h' (authBlocks q.data q.ct)
  | none => 0

theorem remask_comm (qs : List Sent) (h h' x : BitVec 128) : remask qs h h' x = remask qs h' h x := by
  unfold remask
  split
  · exact BitVec.xor_comm _ _
  · rfl

/-- The hash key changed by `δ`, with the masks adapted. -/
def rekey (qs : List Sent) (δ : BitVec 128) (F : BlockFunction) : BlockFunction := fun x =>
  if x = bits (zeros 16) then F x ^^^ δ
  else F x ^^^ remask qs (F (bits (zeros 16))) (F (bits (zeros 16)) ^^^ δ) x

theorem rekey_involutive (qs : List Sent) (δ : BitVec 128) : Function.Involutive (rekey qs δ) := by
  intro F
  funext x
  have h0 : rekey qs δ F (bits (zeros 16)) = F (bits (zeros 16)) ^^^ δ := by unfold rekey; rw [if_pos rfl]
  by_cases hx : x = bits (zeros 16)
  · subst hx
    show (if _ then _ else _) = _
    rw [if_pos rfl, h0, BitVec.xor_assoc, BitVec.xor_self]; simp
  · have h1 : rekey qs δ F x = F x ^^^ remask qs (F (bits (zeros 16))) (F (bits (zeros 16)) ^^^ δ) x := by
      unfold rekey; rw [if_neg hx]
    show (if _ then _ else _) = _
    rw [if_neg hx, h0, h1, BitVec.xor_assoc (F (bits (zeros 16))), BitVec.xor_self,
      show F (bits (zeros 16)) ^^^ 0#128 = F (bits (zeros 16)) by simp, remask_comm, BitVec.xor_assoc, BitVec.xor_self]
    simp

theorem bits_ctr_inj {n n' : Bytes} (hn : n.length = 12) (hn' : n'.length = 12) {c c' : Nat} (hc : c < 2 ^ 32) (hc' : c' < 2 ^ 32)
    (h : bits (n ++ toBE 4 c) = bits (n' ++ toBE 4 c')) : n = n' ∧ c = c' := by
  have h1 := ctr_parts hn hc
  have h2 := ctr_parts hn' hc'
  rw [h] at h1
  exact ⟨h1.1.symm.trans h2.1, h1.2.symm.trans h2.2⟩

theorem zeros_ctr : zeros 16 = zeros 12 ++ toBE 4 0 := by decide +kernel

theorem rekey_explains {m : Mode} {qs : List Sent} (hd : (qs.map Sent.nonce).Nodup) (δ : BitVec 128) {F : BlockFunction}
    (hF : F ∈ explains m qs) : rekey qs δ F ∈ explains m qs := by
  have hn : ∀ q ∈ qs, q.nonce.length = 12 := fun q hq => (sent_facts (hF q hq)).1.1
  intro q hq
  have hz : ∀ c, 1 ≤ c → c < 2 ^ 32 → bits (q.nonce ++ toBE 4 c) ≠ bits (zeros 16) := by
    intro c h1 h2 h
    rw [zeros_ctr] at h
    have := (bits_ctr_inj (hn q hq) (by simp) h2 (by norm_num) h).2
    omega
  refine sent_of (hF q hq) ?_ ?_
  · intro c h2 hc
    unfold rekey
    rw [if_neg (hz c (by omega) hc)]
    have : qs.find? (fun q' => decide (bits (Spec.Gcm.J0 q'.nonce) = bits (q.nonce ++ toBE 4 c))) = none := by
      rw [List.find?_eq_none]
      intro q' hq' h
      rw [decide_eq_true_eq, Proofs.Gcm.J0_eq] at h
      have := (bits_ctr_inj (hn q' hq') (hn q hq) (by norm_num) hc h).2
      omega
    unfold remask
    rw [this]; simp
  · have hJ : bits (Spec.Gcm.J0 q.nonce) ≠ bits (zeros 16) := by rw [Proofs.Gcm.J0_eq]; exact hz 1 (by omega) (by norm_num)
    have hfind : qs.find? (fun q' => decide (bits (Spec.Gcm.J0 q'.nonce) = bits (Spec.Gcm.J0 q.nonce))) = some q := by
      obtain ⟨q', hq'⟩ : ∃ q', qs.find? (fun q' => decide (bits (Spec.Gcm.J0 q'.nonce) = bits (Spec.Gcm.J0 q.nonce))) = some q' := by
        rw [← Option.isSome_iff_exists, List.find?_isSome]
        exact ⟨q, hq, by simp⟩
      have h1 := List.find?_some hq'
      have h2 := List.mem_of_find?_eq_some hq'
      rw [decide_eq_true_eq, Proofs.Gcm.J0_eq, Proofs.Gcm.J0_eq] at h1
      have h3 := (bits_ctr_inj (hn q' h2) (hn q hq) (by norm_num) (by norm_num) h1).1
      rw [hq', List.inj_on_of_nodup_map hd h2 hq h3]
    unfold rekey
    rw [if_pos rfl, if_neg hJ]
    unfold remask
    rw [hfind]
    simp only
    generalize ghash (F (bits (zeros 16)) ^^^ δ) _ = a
    generalize ghash (F (bits (zeros 16))) _ = b
    generalize F (bits (Spec.Gcm.J0 q.nonce)) = c
    rw [← BitVec.xor_assoc c b a, BitVec.xor_comm (c ^^^ b) a, ← BitVec.xor_assoc a a, BitVec.xor_self, BitVec.xor_comm c b]
    simp

/-- The mask of one nonce changed by `δ`. -/
def shiftMask (nonce : Bytes) (δ : BitVec 128) (F : BlockFunction) : BlockFunction := fun x =>
  if x = bits (Spec.Gcm.J0 nonce) then F x ^^^ δ else F x

theorem shiftMask_involutive (nonce : Bytes) (δ : BitVec 128) : Function.Involutive (shiftMask nonce δ) := by
  intro F
  funext x
  unfold shiftMask
  by_cases hx : x = bits (Spec.Gcm.J0 nonce)
  · simp only [if_pos hx]
    rw [BitVec.xor_assoc, BitVec.xor_self]; simp
  · simp only [if_neg hx]

theorem shiftMask_explains {m : Mode} {qs : List Sent} {nonce : Bytes} (hl : nonce.length = 12) (hne : nonce ∉ qs.map Sent.nonce)
    (δ : BitVec 128) {F : BlockFunction} (hF : F ∈ explains m qs) : shiftMask nonce δ F ∈ explains m qs := by
  have hn : ∀ q ∈ qs, q.nonce.length = 12 := fun q hq => (sent_facts (hF q hq)).1.1
  intro q hq
  have h1 : ∀ c, c < 2 ^ 32 → bits (q.nonce ++ toBE 4 c) ≠ bits (Spec.Gcm.J0 nonce) := by
    intro c hc h
    rw [Proofs.Gcm.J0_eq] at h
    have := (bits_ctr_inj (hn q hq) hl hc (by norm_num) h).1
    exact hne (this ▸ List.mem_map_of_mem hq)
  have hz : bits (zeros 16) ≠ bits (Spec.Gcm.J0 nonce) := by
    intro h
    rw [Proofs.Gcm.J0_eq, zeros_ctr] at h
    have := (bits_ctr_inj (by simp) hl (by norm_num) (by norm_num) h).2
    omega
  refine sent_of (hF q hq) ?_ ?_
  · intro c _ hc
    unfold shiftMask
    rw [if_neg (h1 c hc)]
  · unfold shiftMask
    rw [if_neg hz, if_neg (by rw [Proofs.Gcm.J0_eq]; exact h1 1 (by norm_num))]

/-- C80. Forging over a random function. Take any encryptions under pairwise different nonces with their results, and any
attempt `(nonce, data, ct, t)` that is not one of them. Among the functions that explain the results, at most the fraction
`n / 2^128` lets the attempt be accepted, `n` being the largest number of blocks authenticated in one message. -/
theorem C80_gcm_forgery (m m' : Mode) (qs : List Sent) (hd : (qs.map Sent.nonce).Nodup) (nonce data ct t : Bytes)
    (hnew : ∀ q ∈ qs, (q.nonce, q.data, q.ct, q.tag) ≠ (nonce, data, ct, t)) (n : Nat) (hn : gcmBlocks data ct ≤ n)
    (hq : ∀ q ∈ qs, gcmBlocks q.data q.ct ≤ n) :
    (explains m qs ∩ accepts m' nonce data ct t).ncard * 2 ^ 128 ≤ n * (explains m qs).ncard := by
  have h1n : 1 ≤ n := le_trans (by unfold gcmBlocks; omega) hn
  by_cases hmem : nonce ∈ qs.map Sent.nonce
  · obtain ⟨q, hqm, rfl⟩ := List.mem_map.mp hmem
    by_cases hsame : (data, ct) = (q.data, q.ct)
    · -- the genuine ciphertext with another tag is never accepted
      have : explains m qs ∩ accepts m' q.nonce data ct t = ∅ := by
        rw [Set.eq_empty_iff_forall_notMem]
        rintro F ⟨hF, hA⟩
        cases hsame
        refine hnew q hqm ?_
        rw [(accepts_tag hA).2, ← (sent_facts (hF q hqm)).2.2.2]
      rw [this]; simp
    · obtain ⟨S, hS, hall⟩ := C61_gcm_forgery_any_cipher q.data q.ct q.tag data ct t hsame
      refine count_action (rekey qs) (rekey_involutive qs) _ _ (fun δ F hF => rekey_explains hd δ hF) Set.inter_subset_left n ?_
      intro F hF
      have hsub : {δ | rekey qs δ F ∈ explains m qs ∩ accepts m' q.nonce data ct t} ⊆
          (fun δ => bytes (F (bits (zeros 16)) ^^^ δ)) ⁻¹' (S : Set Bytes) := by
        rintro δ ⟨h1, buf, out, h2⟩
        have := hall oracle (rekey qs δ F) (oracle_length _) m m' q.msg q.nonce q.buffer buf out (h1 q hqm) h2
        show bytes (F (bits (zeros 16)) ^^^ δ) ∈ (S : Set Bytes)
        have e : oracle.permute (rekey qs δ F) (zeros 16) = bytes (F (bits (zeros 16)) ^^^ δ) := by
          show bytes (rekey qs δ F _) = _
          unfold rekey
          rw [if_pos rfl]
        rw [← e]
        exact this
      have hinj : Function.Injective (fun δ => bytes (F (bits (zeros 16)) ^^^ δ)) := by
        intro a b h
        have := congrArg bits h
        simp only [bits_bytes] at this
        have := congrArg (F (bits (zeros 16)) ^^^ ·) this
        simpa only [← BitVec.xor_assoc, BitVec.xor_self, BitVec.zero_xor] using this
      calc _ ≤ ((fun δ => bytes (F (bits (zeros 16)) ^^^ δ)) ⁻¹' (S : Set Bytes)).ncard := Set.ncard_le_ncard hsub (Set.toFinite _)
        _ ≤ (S : Set Bytes).ncard := by
            rw [← Set.ncard_image_of_injective _ hinj]
            exact Set.ncard_le_ncard (Set.image_preimage_subset _ _) (Set.toFinite _)
        _ = S.card := Set.ncard_coe_finset S
        _ ≤ n := hS.trans (max_le (hq q hqm) hn)
  · by_cases hl : nonce.length = 12
    · refine count_action (shiftMask nonce) (shiftMask_involutive nonce) _ _ (fun δ F hF => shiftMask_explains hl hmem δ hF)
        Set.inter_subset_left n ?_
      intro F hF
      refine le_trans ?_ h1n
      rw [Set.ncard_le_one]
      intro a ha b hb
      have key : ∀ δ, shiftMask nonce δ F ∈ accepts m' nonce data ct t →
          bits t = ghash (F (bits (zeros 16))) (authBlocks data ct) ^^^ (F (bits (Spec.Gcm.J0 nonce)) ^^^ δ) := by
        intro δ h
        rw [(accepts_tag h).2, bits_tag' _ _ _ _ hl]
        have hz : bits (zeros 16) ≠ bits (Spec.Gcm.J0 nonce) := by
          intro h
          rw [Proofs.Gcm.J0_eq, zeros_ctr] at h
          have := (bits_ctr_inj (by simp) hl (by norm_num) (by norm_num) h).2
          omega
        unfold shiftMask
        rw [if_neg hz, if_pos rfl]
      have e := (key a ha.2).symm.trans (key b hb.2)
      rwa [BitVec.xor_right_inj, BitVec.xor_right_inj] at e
    · have : explains m qs ∩ accepts m' nonce data ct t = ∅ := by
        rw [Set.eq_empty_iff_forall_notMem]
        rintro F ⟨-, hA⟩
        exact hl (accepts_tag hA).1
      rw [this]; simp

/-- C80, with several attempts: at most the fraction `attempts * n / 2^128` lets any of them be accepted. -/
theorem C80_gcm_forgeries (m m' : Mode) (qs : List Sent) (hd : (qs.map Sent.nonce).Nodup)
    (attempts : List (Bytes × Bytes × Bytes × Bytes))
    (hnew : ∀ q ∈ qs, ∀ a ∈ attempts, (q.nonce, q.data, q.ct, q.tag) ≠ a) (n : Nat)
    (hn : ∀ a ∈ attempts, gcmBlocks a.2.1 a.2.2.1 ≤ n) (hq : ∀ q ∈ qs, gcmBlocks q.data q.ct ≤ n) :
    (explains m qs ∩ {F | ∃ a ∈ attempts, F ∈ accepts m' a.1 a.2.1 a.2.2.1 a.2.2.2}).ncard * 2 ^ 128 ≤
      attempts.length * n * (explains m qs).ncard := by
  induction attempts with
  | nil => simp
  | cons a as ih =>
    have h1 := C80_gcm_forgery m m' qs hd a.1 a.2.1 a.2.2.1 a.2.2.2 (fun q hq => hnew q hq a (by simp)) n (hn a (by simp)) hq
    have h2 := ih (fun q hq b hb => hnew q hq b (by simp [hb])) (fun b hb => hn b (by simp [hb]))
    have hs : explains m qs ∩ {F | ∃ b ∈ a :: as, F ∈ accepts m' b.1 b.2.1 b.2.2.1 b.2.2.2} =
        (explains m qs ∩ accepts m' a.1 a.2.1 a.2.2.1 a.2.2.2) ∪
          (explains m qs ∩ {F | ∃ b ∈ as, F ∈ accepts m' b.1 b.2.1 b.2.2.1 b.2.2.2}) := by
      ext F
      simp only [Set.mem_inter_iff, Set.mem_union, Set.mem_ofPred_eq, List.mem_cons, exists_eq_or_imp]
      tauto
    rw [hs]
    have h3 := Set.ncard_union_le (explains m qs ∩ accepts m' a.1 a.2.1 a.2.2.1 a.2.2.2)
      (explains m qs ∩ {F | ∃ b ∈ as, F ∈ accepts m' b.1 b.2.1 b.2.2.1 b.2.2.2})
    rw [List.length_cons]
    nlinarith

/-- Some function explains what another function did; the bound is not about an empty set. -/
example (F : BlockFunction) : ∃ q : Sent, q.msg = [1, 2, 3] ∧ F ∈ explains .debug [q] := by
  have h := Proofs.Gcm.encrypt_ok oracle F _ (fun _ _ => rfl) (oracle_length F) .debug [1, 2, 3] (zeros 12) [] (zeros 3)
    ⟨by simp, by simp, by simp, by simp⟩ (Or.inr (by simp))
  revert h
  generalize Spec.Gcm.tag _ _ _ _ = t
  generalize Spec.Gcm.crypt _ _ _ = ct
  intro h
  refine ⟨⟨zeros 12, [], [1, 2, 3], zeros 3, ct, t⟩, rfl, ?_⟩
  intro q hq
  rw [List.mem_singleton] at hq
  subst hq
  exact h

/-! ## Further concrete cases -/

/-- Two messages under different nonces, each with an alternative of the same length. -/
def twoChoices : List Choice := [⟨zeros 12, [1], [1, 2, 3], [4, 5, 6]⟩, ⟨1 :: zeros 11, [], zeros 40, List.replicate 40 9⟩]

example : ∃ σ : Equiv.Perm BlockFunction, ∀ F, ∀ q ∈ twoChoices, ∀ (m : Mode) (output : Bytes),
    Model.Gcm.encrypt oracle m (σ F) q.msg' q.nonce q.data output = Model.Gcm.encrypt oracle m F q.msg q.nonce q.data output :=
  C79_gcm_hides_messages twoChoices (by decide) (by decide)

example (buffer : Choice → Bytes) (seen : Choice → Option (Bytes × Bytes)) :=
  C79_gcm_observations twoChoices (by decide) (by decide) .debug buffer seen

/-- After one message, a tag for another ciphertext under the same nonce is right for at most 3 in `2^128` of the block functions that explain it. -/
example (tag : Bytes) : (explains .debug [⟨zeros 12, [], [1, 2, 3], zeros 3, [4, 5, 6], tag⟩] ∩ accepts .debug (zeros 12) [9] [4, 5, 7] tag).ncard * 2 ^ 128 ≤
    3 * (explains .debug [⟨zeros 12, [], [1, 2, 3], zeros 3, [4, 5, 6], tag⟩]).ncard :=
  C80_gcm_forgery .debug .debug _ (by simp) (zeros 12) [9] [4, 5, 7] tag (by simp) 3 (by decide) (by simp [gcmBlocks])

example (tag : Bytes) (tags : List Bytes) := C80_gcm_forgeries .debug .release [⟨zeros 12, [], [1, 2, 3], zeros 3, [4, 5, 6], tag⟩] (by simp)
  (tags.map fun t => (zeros 12, [9], [4, 5, 7], t)) (by simp) 3 (by simp [gcmBlocks]) (by simp [gcmBlocks])

end CryptoPure.Props
