import Verif.Proofs.Growth
import Verif.Props.CcpMisuse

/-! # C118: ChaCha20-Poly1305 does not commit to the key -/

namespace CryptoPure.Props
open CryptoPure.Model CryptoPure.Model.Poly1305
open CryptoPure.Spec.Poly1305 (clamp macData oneTimeKey P)
open Proofs.Poly1305Universal (num prime_P block_num)

/-- The secret multiplier of the one-time key for a key and a nonce, RFC 8439 §2.5, §2.6. -/
def multiplier (key nonce : Bytes) : Nat := clamp (leNat ((oneTimeKey key nonce).take 16))

instance : Fact (Nat.Prime P) := ⟨prime_P⟩

/-- The numbers that whole blocks contribute. -/
def blockNums : Finset (ZMod P) := (Finset.range (2 ^ 128)).image fun n => ((n + 2 ^ 128 : Nat) : ZMod P)

theorem blockNums_card : blockNums.card = (2 ^ 128 - 1) + 1 := by
  unfold blockNums
  rw [Finset.card_image_of_injOn, Finset.card_range]
  · rfl
  · intro a ha b hb h
    simp only [Finset.coe_range, Set.mem_Iio] at ha hb
    rw [ZMod.natCast_eq_natCast_iff', Nat.mod_eq_of_lt (by unfold P; omega), Nat.mod_eq_of_lt (by unfold P; omega)] at h
    omega

theorem mem_blockNums {x : ZMod P} (h : x ∈ blockNums) : ∃ b : Bytes, b.length = 16 ∧ num b = x := by
  obtain ⟨n, hn, rfl⟩ := Finset.mem_image.mp h
  have hn := Finset.mem_range.mp hn
  refine ⟨toLE 16 n, toLE_length _ _, ?_⟩
  unfold num
  rw [block_num _ (toLE_length _ _), leNat_toLE, Nat.mod_eq_of_lt (by exact hn)]

theorem blocks_of (xs : List (ZMod P)) (h : ∀ x ∈ xs, x ∈ blockNums) :
    ∃ bs : List Bytes, (∀ b ∈ bs, b.length = 16) ∧ bs.map num = xs := by
  induction xs with
  | nil => exact ⟨[], by simp, rfl⟩
  | cons x xs ih =>
    obtain ⟨bs, h1, h2⟩ := ih fun y hy => h y (List.mem_cons_of_mem _ hy)
    obtain ⟨b, hb, e⟩ := mem_blockNums (h x List.mem_cons_self)
    refine ⟨b :: bs, ?_, by rw [List.map_cons, e, h2]⟩
    intro y hy
    rcases List.mem_cons.mp hy with rfl | hy
    · exact hb
    · exact h1 y hy

theorem chunks_blocks (bs : List Bytes) (h : ∀ b ∈ bs, b.length = 16) : chunks 16 bs.flatten = bs := by
  induction bs with
  | nil => rfl
  | cons b bs ih =>
    rw [List.flatten_cons, chunks_append_block (by omega) (h b List.mem_cons_self),
      ih fun y hy => h y (List.mem_cons_of_mem _ hy)]

theorem accumulate_horner (r : Nat) (bs cs : List Bytes) :
    (Spec.Poly1305.accumulate r (bs ++ cs) : ZMod P) =
      Proofs.Growth.horner (r : ZMod P) (Spec.Poly1305.accumulate r bs : ZMod P) (cs.map num) := by
  induction cs using List.reverseRecOn with
  | nil => simp [Proofs.Growth.horner]
  | append_singleton cs c ih =>
    rw [← List.append_assoc, Proofs.Poly1305Universal.accumulate_snoc, ZMod.natCast_mod, List.map_append]
    unfold Proofs.Growth.horner at ih ⊢
    rw [List.foldl_append, ← ih]
    rw [Nat.cast_mul, Nat.cast_add, mul_comm]
    rfl

/-- From any beginning of a ciphertext, 24 more blocks give any two accumulators under two different multipliers. -/
theorem both_accumulators (r r' : Nat) (hr : r ≠ 0) (hr' : r' ≠ 0) (hrP : r < P) (hrP' : r' < P) (hne : r ≠ r') (pre : List Bytes)
    (last : Bytes) (h h' : Nat) (hh : h < P) (hh' : h' < P) :
    ∃ bs : List Bytes, bs.length = 24 ∧ (∀ b ∈ bs, b.length = 16) ∧
      Spec.Poly1305.accumulate r (pre ++ bs ++ [last]) = h ∧ Spec.Poly1305.accumulate r' (pre ++ bs ++ [last]) = h' := by
  have z : ∀ {a : Nat}, a ≠ 0 → a < P → (a : ZMod P) ≠ 0 := by
    intro a h0 hlt e
    rw [ZMod.natCast_eq_zero_iff] at e
    exact absurd (Nat.le_of_dvd (Nat.pos_of_ne_zero h0) e) (by omega)
  have hne' : (r : ZMod P) ≠ (r' : ZMod P) := by
    intro e
    rw [ZMod.natCast_eq_natCast_iff', Nat.mod_eq_of_lt hrP, Nat.mod_eq_of_lt hrP'] at e
    exact hne e
  obtain ⟨xs, h1, h2, h3, h4⟩ := Proofs.Growth.reach (z hr hrP) (z hr' hrP') hne' blockNums_card (by unfold P; omega)
    (by unfold P; omega) ((Spec.Poly1305.accumulate r pre : ZMod P), (Spec.Poly1305.accumulate r' pre : ZMod P))
    ((h : ZMod P) / r - num last, (h' : ZMod P) / r' - num last)
  obtain ⟨bs, hb, rfl⟩ := blocks_of xs h2
  refine ⟨bs, by simpa using h1, hb, ?_, ?_⟩
  · have e := accumulate_horner r (pre ++ bs) [last]
    rw [accumulate_horner r pre bs, h3] at e
    simp only [Proofs.Growth.horner, List.map_cons, List.map_nil, List.foldl_cons, List.foldl_nil, sub_add_cancel,
      div_mul_cancel₀ _ (z hr hrP)] at e
    rw [ZMod.natCast_eq_natCast_iff', Nat.mod_eq_of_lt (Proofs.Poly1305Universal.accumulate_lt _ _), Nat.mod_eq_of_lt hh] at e
    exact e
  · have e := accumulate_horner r' (pre ++ bs) [last]
    rw [accumulate_horner r' pre bs, h4] at e
    simp only [Proofs.Growth.horner, List.map_cons, List.map_nil, List.foldl_cons, List.foldl_nil, sub_add_cancel,
      div_mul_cancel₀ _ (z hr' hrP')] at e
    rw [ZMod.natCast_eq_natCast_iff', Nat.mod_eq_of_lt (Proofs.Poly1305Universal.accumulate_lt _ _), Nat.mod_eq_of_lt hh'] at e
    exact e

theorem oneTimeKey_length (key nonce : Bytes) : (oneTimeKey key nonce).length = 32 := by
  unfold oneTimeKey
  rw [List.length_take, Proofs.ChaCha20.spec_block_length]
  rfl

/-- An accumulator that makes `t` the tag. -/
theorem tag_of_acc (key nonce data ct t : Bytes) (hk : key.length = 32) (hn : nonce.length = 12) (ht : t.length = 16)
    (h : Spec.Poly1305.acc (oneTimeKey key nonce) (macData data ct) =
      2 ^ 128 + (leNat t + (2 ^ 128 - leNat ((oneTimeKey key nonce).drop 16) % 2 ^ 128)) % 2 ^ 128) (m : Mode) :
    tag m (ChaCha20.setupState key nonce) ct data = some t := by
  obtain ⟨t', h1, -, h3⟩ := Proofs.Poly1305.tag_exists key nonce hk hn data ct
  rw [h1 m, h3 (by rw [h]; omega)]
  unfold Spec.Poly1305.tag Spec.Poly1305.mac
  rw [h]
  set s := leNat ((oneTimeKey key nonce).drop 16)
  have hlt := leNat_lt t
  rw [ht] at hlt
  have e : (2 ^ 128 + (leNat t + (2 ^ 128 - s % 2 ^ 128)) % 2 ^ 128 + s) % 256 ^ 16 = leNat t := by omega
  rw [← Proofs.Poly1305.toLE_mod 16, e, ← ht, toLE_leNat]

theorem decrypt_of_tag (m : Mode) (key nonce data ct t buf : Bytes) (hk : key.length = 32) (hn : nonce.length = 12)
    (hlen : (ct.length + 63) / 64 < 2 ^ 32 - 2) (hb : buf.length = ct.length) (ht : t.length = 16)
    (h : tag m (ChaCha20.setupState key nonce) ct data = some t) :
    decrypt m key ct nonce data t buf = some (Spec.Poly1305.crypt key nonce ct, true) := by
  unfold decrypt
  have ha : assert (buf.length == ct.length) = some () := by rw [assert_eq_some]; simpa using hb
  rw [ha, chacha_new key nonce hk hn]
  simp only [Option.bind_eq_bind, Option.bind_some]
  rw [h]
  simp only [Option.bind_some]
  rw [C01_verify16 _ _ ht]
  simp only [Option.bind_some, decide_true, if_true]
  rw [Proofs.Poly1305.process_spec' key nonce hk hn m ct buf hb.symm, if_pos (.inr hlen)]
  rfl

/-- For any two keys whose secret multipliers under the nonce differ and are not zero, any data, any tag chosen in advance and
any beginning `p` of a ciphertext (whole blocks), 24 more blocks can be chosen such that `decrypt` accepts the ciphertext
with that tag under both keys, in each case with the plaintext that the key gives. -/
theorem C118_not_key_committing (key key' k k' nonce data p t : Bytes) (hk : Model.Poly1305.new key = some k)
    (hk' : Model.Poly1305.new key' = some k') (hn : nonce.length = 12) (ht : t.length = 16)
    (h0 : multiplier key nonce ≠ 0) (h0' : multiplier key' nonce ≠ 0) (hne : multiplier key nonce ≠ multiplier key' nonce)
    (hp : p.length % 16 = 0) (hpl : p.length < 64 * (2 ^ 32 - 10)) :
    ∃ c : Bytes, c.length = 384 ∧ ∀ (m m' : Mode) (buf buf' : Bytes), buf.length = p.length + 384 → buf'.length = p.length + 384 →
      decrypt m k (p ++ c) nonce data t buf = some (Spec.Poly1305.crypt key nonce (p ++ c), true) ∧
      decrypt m' k' (p ++ c) nonce data t buf' = some (Spec.Poly1305.crypt key' nonce (p ++ c), true) := by
  obtain ⟨rfl, hk⟩ := new_eq hk
  obtain ⟨rfl, hk'⟩ := new_eq hk'
  obtain ⟨bs, h1, h2, h3, h4⟩ := both_accumulators (multiplier k nonce) (multiplier k' nonce) h0 h0'
    (Proofs.Poly1305Universal.clamp_lt _) (Proofs.Poly1305Universal.clamp_lt _) hne
    (chunks 16 (Proofs.Poly1305.padded data) ++ chunks 16 p) (toLE 8 data.length ++ toLE 8 (p.length + 384))
    (2 ^ 128 + (leNat t + (2 ^ 128 - leNat ((oneTimeKey k nonce).drop 16) % 2 ^ 128)) % 2 ^ 128)
    (2 ^ 128 + (leNat t + (2 ^ 128 - leNat ((oneTimeKey k' nonce).drop 16) % 2 ^ 128)) % 2 ^ 128)
    (by unfold P; omega) (by unfold P; omega)
  have hcl : bs.flatten.length = 384 := by
    have : ∀ l : List Bytes, (∀ b ∈ l, b.length = 16) → l.flatten.length = 16 * l.length := by
      intro l
      induction l with
      | nil => simp
      | cons b l ih =>
        intro h
        rw [List.flatten_cons, List.length_append, h b List.mem_cons_self, ih fun y hy => h y (List.mem_cons_of_mem _ hy),
          List.length_cons]
        omega
    rw [this bs h2, h1]
  have hl : (p ++ bs.flatten).length = p.length + 384 := by rw [List.length_append, hcl]
  have hch : chunks 16 (macData data (p ++ bs.flatten)) =
      chunks 16 (Proofs.Poly1305.padded data) ++ chunks 16 p ++ bs ++ [toLE 8 data.length ++ toLE 8 (p.length + 384)] := by
    have hpad : Proofs.Poly1305.padded (p ++ bs.flatten) = p ++ bs.flatten := by
      unfold Proofs.Poly1305.padded Spec.Poly1305.pad16
      rw [hl, show (16 - (p.length + 384) % 16) % 16 = 0 by omega]
      simp [zeros]
    rw [Proofs.Poly1305.macData_chunks, hpad, chunks_append (by omega) hp, chunks_blocks bs h2, hl]
    simp only [List.append_assoc]
  refine ⟨bs.flatten, hcl, fun m m' buf buf' hb hb' => ⟨?_, ?_⟩⟩
  · refine decrypt_of_tag m k nonce data _ t buf hk hn (by rw [hl]; omega) (by rw [hl]; exact hb) ht
      (tag_of_acc k nonce data _ t hk hn ht ?_ m)
    unfold Spec.Poly1305.acc
    rw [hch]
    exact h3
  · refine decrypt_of_tag m' k' nonce data _ t buf' hk' hn (by rw [hl]; omega) (by rw [hl]; exact hb') ht
      (tag_of_acc k' nonce data _ t hk' hn ht ?_ m')
    unfold Spec.Poly1305.acc
    rw [hch]
    exact h4

/-! ## The hypotheses can be met -/

theorem multiplier_code (key nonce : Bytes) (hk : key.length = 32) (hn : nonce.length = 12) :
    multiplier key nonce = clamp (leNat ((polyKeyGen (ChaCha20.setupState key nonce)).take 16)) := by
  unfold multiplier
  rw [oneTimeKey_eq key nonce hk hn]

/-- Two keys that meet the hypotheses under the zero nonce. -/
theorem multipliers_differ : multiplier (zeros 32) (zeros 12) ≠ 0 ∧ multiplier (1 :: zeros 31) (zeros 12) ≠ 0 ∧
    multiplier (zeros 32) (zeros 12) ≠ multiplier (1 :: zeros 31) (zeros 12) := by
  rw [multiplier_code _ _ (by simp) (by simp), multiplier_code _ _ (by simp) (by simp)]
  decide +kernel

/-- There is one ciphertext with a tag of sixteen zero bytes that opens under two different keys. -/
theorem C118_example : ∃ c : Bytes, ∀ m, (∃ out, decrypt m (zeros 32) c (zeros 12) [] (zeros 16) (zeros c.length) = some (out, true)) ∧
    (∃ out, decrypt m (1 :: zeros 31) c (zeros 12) [] (zeros 16) (zeros c.length) = some (out, true)) := by
  obtain ⟨h1, h2, h3⟩ := multipliers_differ
  obtain ⟨c, hc, h⟩ := C118_not_key_committing (zeros 32) (1 :: zeros 31) (zeros 32) (1 :: zeros 31) (zeros 12) [] [] (zeros 16)
    rfl rfl (by simp) (by simp) h1 h2 h3 rfl (by simp)
  refine ⟨c, fun m => ?_⟩
  rw [hc]
  obtain ⟨h4, h5⟩ := h m m (zeros 384) (zeros 384) (by simp) (by simp)
  exact ⟨⟨_, h4⟩, ⟨_, h5⟩⟩

end CryptoPure.Props
