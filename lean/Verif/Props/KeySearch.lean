import Verif.Proofs.KeySearch
import Verif.Props.MultiPerm
import Verif.Props.ChaChaPerm

/-! # C140: trying keys

C121 and C125 say that breaking AES-GCM under one of many keys means telling AES under these keys from random permutations. How hard can that be? Whoever
tries keys has a chance that grows with the number of users. Here AES is replaced by a random block cipher (a random permutation for each key) that the
attacker (`KeySearch.Attacker`) may compute in both directions, under keys of its choice, and the bound shows what trying keys is worth. -/

namespace CryptoPure.Props
open CryptoPure.Model CryptoPure.MultiGame CryptoPure.KeySearch
open Distinguisher (Distinguisher advantage)
open Game (Scheme prob prob_prod_le prob_equiv)
open Spec.Gcm (bits bytes)
open Proofs.GHashUniversal (bits_bytes bytes_bits)

variable {u : Nat}

/-- Block ciphers with the keys and blocks of AES-128, AES-192 or AES-256: for each key a permutation of the blocks. -/
abbrev AesLike (k : AesKind) := AesKey k → Equiv.Perm (BitVec 128)

theorem aesFunction_bijective (k : AesKind) (key : AesKey k) : Function.Bijective (aesFunction k key) := by
  have hs : ∃ st, k.code.new key.1 = some st := by
    rw [← Option.ne_none_iff_exists']
    exact fun h => (C17_key_length k key.1).mp h key.2
  obtain ⟨st, h⟩ := hs
  have hlen := C16_length k key.1 st h
  have e : ∀ x, aesFunction k key x = bits (k.code.permute st (bytes x)) := fun x =>
    congrArg bits (C15_fips197 k key.1 (bytes x) (Proofs.Gcm.bytes_length x) st h).symm
  constructor
  · intro x y exy
    rw [e, e] at exy
    have hx := Proofs.Gcm.bytes_length x
    have hy := Proofs.Gcm.bytes_length y
    have e' := bits_inj' (hlen _ hx) (hlen _ hy) exy
    have := (C16_permutation k key.1 st h _ (hlen _ hy)).unique ⟨hx, e'⟩ ⟨hy, rfl⟩
    rw [← bits_bytes x, this, bits_bytes]
  · intro y
    obtain ⟨x, ⟨hx, e2⟩, -⟩ := C16_permutation k key.1 st h (bytes y) (Proofs.Gcm.bytes_length y)
    refine ⟨bits x, ?_⟩
    rw [e, bytes_bits x hx, e2, bits_bytes]

/-- **AES-GCM of the crate is among the ciphers that the bounds below are about**: AES is such a block cipher, and with it each call is that of the
crate's code. -/
theorem C140_code (k : AesKind) : ∃ E : AesLike k, (∀ key x, E key x = aesFunction k key x) ∧ ∀ (m : Mode) (key : AesKey k),
    (gcmScheme permOracle m).enc (E key) = (aesGcm k m).enc key ∧ (gcmScheme permOracle m).dec (E key) = (aesGcm k m).dec key := by
  refine ⟨fun key => Equiv.ofBijective _ (aesFunction_bijective k key), fun _ _ => rfl, fun m key => ?_⟩
  obtain ⟨h1, h2⟩ := aesGcm_eq k m key
  exact ⟨by rw [h1, perm_enc]; rfl, by rw [h2, perm_dec]; rfl⟩

theorem card_aesKey (k : AesKind) : Nat.card (AesKey k) = 2 ^ (32 * k.Nk) := by
  rw [card_digest (4 * k.Nk), show (256 : Nat) = 2 ^ 8 by norm_num, ← pow_mul]
  congr 1
  ring

instance (k : AesKind) : Nonempty (AesKey k) := ⟨⟨zeros (4 * k.Nk), by simp⟩⟩
instance aesKeyFinite (k : AesKind) : Finite (AesKey k) := Nat.finite_of_card_ne_zero (by rw [card_aesKey]; positivity)

/-! ## Many users with random permutations -/

theorem perm_switch (m : Mode) (A : Adversary u) (s B : Nat) (hB1 : 1 ≤ B) (hs : Costs gcmCost A s) (hB : CostsEach gcmCost B A (fun _ => 0))
    (right : Bool) :
    |prob (fun F : Fin u → BlockFunction => (forgeryTest (gcmScheme oracle m) gcmPoints right A).run (fun x => F x.1 x.2) = true) -
      prob (fun π : Fin u → Equiv.Perm (BitVec 128) => (forgeryTest (gcmScheme oracle m) gcmPoints right A).run (fun x => π x.1 x.2) = true)| ≤
        s * (B - 1) / 2 ^ 129 ∧
    |prob (fun F : Fin u → BlockFunction => (guessTest (gcmScheme oracle m) gcmPoints right A).run (fun x => F x.1 x.2) = true) -
      prob (fun π : Fin u → Equiv.Perm (BitVec 128) => (guessTest (gcmScheme oracle m) gcmPoints right A).run (fun x => π x.1 x.2) = true)| ≤
        s * (B - 1) / 2 ^ 129 := by
  have hb := tests_budget (S := gcmScheme oracle m) gcmPoints_length right A s B (fun _ => 0) hs hB []
  have e : ((s : ℚ) * (B - 1) / 2) / ((2 ^ 128 : Nat) : ℚ) = s * (B - 1) / 2 ^ 129 := by
    push_cast
    rw [div_div]
    norm_num
  have h1 := Switch.multi_switch B hB1 _ s hb.1
  have h2 := Switch.multi_switch B hB1 _ s hb.2
  rw [card_block, e] at h1 h2
  exact ⟨h1, h2⟩

theorem perm_over (m : Mode) (π : Fin u → Equiv.Perm (BitVec 128)) (right : Bool) (A : Adversary u) :
    (forges (gcmScheme permOracle m) right π A [] ↔
      (forgeryTest (gcmScheme oracle m) gcmPoints right A).run (fun x => π x.1 x.2) = true) ∧
    play (gcmScheme permOracle m) right π A [] = (guessTest (gcmScheme oracle m) gcmPoints right A).run (fun x => π x.1 x.2) := by
  have h3 := over_congr (S := gcmScheme oracle m) (S' := gcmScheme permOracle m) π (fun π : Equiv.Perm (BitVec 128) => (π : BitVec 128 → BitVec 128))
    (fun π => ⟨perm_enc m π, perm_dec m π⟩) right A []
  have h2 := tests_run (gcm_local m) right A fun i => (π i : BitVec 128 → BitVec 128)
  exact ⟨h3.2.trans h2.1.symm, h3.1.trans h2.2.symm⟩

theorem many_perm_forgery (m : Mode) (A : Adversary u) (a n s B : Nat) (hn : n ≤ 2 ^ 32 - 3) (hA : Within authCount n A a) (hB1 : 1 ≤ B)
    (hs : Costs gcmCost A s) (hB : CostsEach gcmCost B A (fun _ => 0)) (right : Bool) :
    prob (fun π : Fin u → Equiv.Perm (BitVec 128) => forges (gcmScheme permOracle m) right π A []) ≤ a * n / 2 ^ 128 + s * (B - 1) / 2 ^ 129 := by
  have h1 := C121_gcm_forgery m A a n hn hA right
  rw [prob_congr fun F => (tests_run (gcm_local m) right A F).1.symm] at h1
  rw [prob_congr fun π => (perm_over m π right A).1]
  have h2 := (abs_le.mp (perm_switch m A s B hB1 hs hB right).1).1
  linarith

theorem many_perm_confidentiality (m : Mode) (A : Adversary u) (a n s B : Nat) (hn : n ≤ 2 ^ 32 - 3) (hA : Within authCount n A a) (hB1 : 1 ≤ B)
    (hs : Costs gcmCost A s) (hB : CostsEach gcmCost B A (fun _ => 0)) :
    |prob (fun π : Fin u → Equiv.Perm (BitVec 128) => play (gcmScheme permOracle m) false π A [] = true) -
      prob (fun π : Fin u → Equiv.Perm (BitVec 128) => play (gcmScheme permOracle m) true π A [] = true)| ≤
      2 * (a * n / 2 ^ 128) + s * (B - 1) / 2 ^ 128 := by
  have h1 := C121_gcm_confidentiality m A a n hn hA
  have e1 : ∀ right, prob (fun F : Fin u → BlockFunction => play (gcmScheme oracle m) right F A [] = true) =
      prob (fun F : Fin u → BlockFunction => (guessTest (gcmScheme oracle m) gcmPoints right A).run (fun x => F x.1 x.2) = true) := fun right =>
    prob_congr fun F => by rw [(tests_run (gcm_local m) right A F).2]
  have e2 : ∀ right, prob (fun π : Fin u → Equiv.Perm (BitVec 128) => play (gcmScheme permOracle m) right π A [] = true) =
      prob (fun π : Fin u → Equiv.Perm (BitVec 128) => (guessTest (gcmScheme oracle m) gcmPoints right A).run (fun x => π x.1 x.2) = true) := fun right =>
    prob_congr fun π => by rw [(perm_over m π right A).2]
  rw [e1, e1] at h1
  rw [e2, e2]
  have h3 := abs_le.mp (perm_switch m A s B hB1 hs hB false).2
  have h4 := abs_le.mp (perm_switch m A s B hB1 hs hB true).2
  have h5 := abs_le.mp h1
  have e : (s : ℚ) * (B - 1) / 2 ^ 128 = s * (B - 1) / 2 ^ 129 + s * (B - 1) / 2 ^ 129 := by ring
  rw [e, abs_le]
  constructor <;> linarith [h3.1, h3.2, h4.1, h4.2, h5.1, h5.2]

/-! ## Attackers who compute the cipher -/

/-- What an attacker may do in a game with `u` users, whatever the cipher: at most `a` decryptions, at most `n` blocks in each call, calls that need at
most `s` blocks enciphered altogether and at most `B` for each single user. -/
structure Limits (k : AesKind) (A : Attacker u (AesKey k) (BitVec 128)) (a n s B : Nat) : Prop where
  within : ∀ E, Within authCount n (A.given E) a
  costs : ∀ E, Costs gcmCost (A.given E) s
  each : ∀ E, CostsEach gcmCost B (A.given E) (fun _ => 0)

/-- **Forging by trying keys.** The users have independent random keys and the block cipher is random. An attacker within these limits that enciphers or
deciphers at most `p` times makes some user accept a forgery with probability at most `a n / 2^128 + s (B - 1) / 2^129`, as in C125, plus
`(u p + u (u - 1) / 2)` divided by the number of keys: each try counts for all users, and two users may have the same key. -/
theorem C140_forgery (k : AesKind) (m : Mode) (A : Attacker u (AesKey k) (BitVec 128)) (a n s B p : Nat) (hn : n ≤ 2 ^ 32 - 3) (hB1 : 1 ≤ B)
    (hA : Limits k A a n s B) (hp : A.Tries p) (right : Bool) :
    prob (fun q : (Fin u → AesKey k) × AesLike k => forges (gcmScheme permOracle m) right (fun i => q.2 (q.1 i)) (A.given q.2) []) ≤
      a * n / 2 ^ 128 + s * (B - 1) / 2 ^ 129 + (u * p + u * (u - 1) / 2) / 2 ^ (32 * k.Nk) := by
  have h1 := Proofs.KeySearch.cipher_le (u := u) (K := AesKey k) (X := Equiv.Perm (BitVec 128))
    (fun E F => forges (gcmScheme permOracle m) right F (A.given E) []) (fun E F => Proofs.KeySearch.asked (gcmScheme permOracle m) right F E A []) p
    (fun E F => Proofs.KeySearch.asked_length _ right F E A p hp [])
    (fun E E' F h => (Proofs.KeySearch.same (gcmScheme permOracle m) right F E E' A [] h).2)
  rw [card_aesKey, Nat.cast_pow, Nat.cast_ofNat] at h1
  have h2 : prob (fun q : AesLike k × (Fin u → Equiv.Perm (BitVec 128)) => forges (gcmScheme permOracle m) right q.2 (A.given q.1) []) ≤
      a * n / 2 ^ 128 + s * (B - 1) / 2 ^ 129 := by
    rw [← prob_equiv (Equiv.prodComm (Fin u → Equiv.Perm (BitVec 128)) (AesLike k))]
    exact prob_prod_le _ _ fun E => many_perm_forgery m (A.given E) a n s B hn (hA.within E) hB1 (hA.costs E) (hA.each E) right
  have := (abs_le.mp h1).2
  linarith

/-- **Reading by trying keys.** Such an attacker tells the first messages of its pairs from the second ones with advantage at most
`2 a n / 2^128 + s (B - 1) / 2^128`, as in C125, plus twice `(u p + u (u - 1) / 2)` divided by the number of keys. -/
theorem C140_confidentiality (k : AesKind) (m : Mode) (A : Attacker u (AesKey k) (BitVec 128)) (a n s B p : Nat) (hn : n ≤ 2 ^ 32 - 3) (hB1 : 1 ≤ B)
    (hA : Limits k A a n s B) (hp : A.Tries p) :
    |prob (fun q : (Fin u → AesKey k) × AesLike k => play (gcmScheme permOracle m) false (fun i => q.2 (q.1 i)) (A.given q.2) [] = true) -
      prob (fun q : (Fin u → AesKey k) × AesLike k => play (gcmScheme permOracle m) true (fun i => q.2 (q.1 i)) (A.given q.2) [] = true)| ≤
      2 * (a * n / 2 ^ 128) + s * (B - 1) / 2 ^ 128 + 2 * ((u * p + u * (u - 1) / 2) / 2 ^ (32 * k.Nk)) := by
  have h1 := fun right => Proofs.KeySearch.cipher_le (u := u) (K := AesKey k) (X := Equiv.Perm (BitVec 128))
    (fun E F => play (gcmScheme permOracle m) right F (A.given E) [] = true) (fun E F => Proofs.KeySearch.asked (gcmScheme permOracle m) right F E A []) p
    (fun E F => Proofs.KeySearch.asked_length _ right F E A p hp [])
    (fun E E' F h => by rw [(Proofs.KeySearch.same (gcmScheme permOracle m) right F E E' A [] h).1])
  simp only [card_aesKey, Nat.cast_pow, Nat.cast_ofNat] at h1
  have h2 : |prob (fun q : AesLike k × (Fin u → Equiv.Perm (BitVec 128)) => play (gcmScheme permOracle m) false q.2 (A.given q.1) [] = true) -
      prob (fun q : AesLike k × (Fin u → Equiv.Perm (BitVec 128)) => play (gcmScheme permOracle m) true q.2 (A.given q.1) [] = true)| ≤
      2 * (a * n / 2 ^ 128) + s * (B - 1) / 2 ^ 128 := by
    rw [← prob_equiv (Equiv.prodComm (Fin u → Equiv.Perm (BitVec 128)) (AesLike k)),
      ← prob_equiv (Equiv.prodComm (Fin u → Equiv.Perm (BitVec 128)) (AesLike k))
        (fun q => play (gcmScheme permOracle m) true q.2 (A.given q.1) [] = true)]
    exact prob_prod_close _ _ _ fun E => many_perm_confidentiality m (A.given E) a n s B hn (hA.within E) hB1 (hA.costs E) (hA.each E)
  have a1 := abs_le.mp (h1 false)
  have a2 := abs_le.mp (h1 true)
  have a3 := abs_le.mp h2
  rw [abs_le]
  constructor <;> linarith [a1.1, a1.2, a2.1, a2.2, a3.1, a3.2]

/-! ## Trying a key works -/

theorem tag_empty (F : Bytes → Bytes) (hF : ∀ x : Bytes, x.length = 16 → (F x).length = 16) (nonce : Bytes) (hn : nonce.length = 12) :
    Spec.Gcm.tag F nonce [] [] = F (Spec.Gcm.J0 nonce) := by
  have h0 : ∀ (h : BitVec 128) i, (Spec.Gcm.mulSteps 0 h i).1 = 0 := by
    intro h i
    induction i with
    | zero => rfl
    | succ i ih =>
      unfold Spec.Gcm.mulSteps
      simpa using ih
  have h1 : ∀ h, Spec.Gcm.ghash h (Spec.Gcm.authBlocks [] []) = 0 := by
    intro h
    have e : Spec.Gcm.authBlocks [] [] = [zeros 16] := by decide +kernel
    rw [e]
    show Spec.Gcm.mul (0 ^^^ Spec.Gcm.bits (zeros 16)) h = 0
    rw [show (0 : BitVec 128) ^^^ Spec.Gcm.bits (zeros 16) = 0 by decide +kernel]
    exact h0 h 128
  unfold Spec.Gcm.tag
  rw [h1, show Spec.Gcm.bytes 0 = zeros 16 by decide +kernel]
  unfold Spec.Gcm.gctr
  rw [show chunks 16 (zeros 16) = [zeros 16] by decide +kernel]
  have hl := hF (Spec.Gcm.J0 nonce) (by simp [Spec.Gcm.J0, hn])
  show xorBytes (zeros 16) (F (Spec.Gcm.J0 nonce)) ++ [] = _
  rw [List.append_nil]
  generalize F (Spec.Gcm.J0 nonce) = y at hl
  have h16 : ∀ (n : Nat) (y : Bytes), y.length = n → xorBytes (zeros n) y = y := by
    intro n
    induction n with
    | zero => intro y hy; rw [List.length_eq_zero_iff.mp hy]; rfl
    | succ n ih =>
      intro y hy
      cases y with
      | nil => simp at hy
      | cons b y =>
        show (0 ^^^ b) :: xorBytes (zeros n) y = _
        rw [ih y (by simpa using hy)]
        simp
  exact h16 16 y hl

/-- Tries one key: computes the tag of the empty message under it, and sends the empty message with this tag to a user. -/
def forgeWith (k : AesKind) (key : AesKey k) (user : Fin u) : Attacker u (AesKey k) (BitVec 128) :=
  .encipher key (bits (Spec.Gcm.J0 (zeros 12))) fun y => .decrypt user (zeros 12) [] [] (bytes y) [] fun _ => .stop true

theorem forgeWith_limits (k : AesKind) (key : AesKey k) (user : Fin u) : Limits k (forgeWith k key user) 1 1 2 2 ∧ (forgeWith k key user).Tries 1 :=
  ⟨⟨fun _ => ⟨by decide, 0, rfl, fun _ => trivial⟩, fun _ => ⟨0, by decide, fun _ => trivial⟩, fun _ => ⟨show 0 + gcmCost 0 ≤ 2 by decide, fun _ => trivial⟩⟩,
    0, rfl, fun _ _ => trivial⟩

/-- **Whoever tries the right key forges**, with one computation of the cipher and one attempt. So the number of keys must not be small, and the bounds
above cannot do without a term for trying keys. -/
theorem C140_right_key (k : AesKind) (m : Mode) (keys : Fin u → AesKey k) (E : AesLike k) (user : Fin u) (right : Bool) :
    forges (gcmScheme permOracle m) right (fun i => E (keys i)) ((forgeWith k (keys user) user).given E) [] := by
  show forges (gcmScheme permOracle m) right (fun i => E (keys i)) (.decrypt user (zeros 12) [] [] (bytes (E (keys user) (bits (Spec.Gcm.J0 (zeros 12))))) []
    fun _ => .stop true) []
  simp only [forges, List.not_mem_nil, if_false]
  refine Or.inl ⟨Spec.Gcm.crypt (permOracle.permute (E (keys user))) (zeros 12) [], ?_⟩
  show Model.Gcm.decrypt permOracle m (E (keys user)) [] (zeros 12) [] _ [] = _
  rw [Proofs.Gcm.decrypt_eq permOracle (E (keys user)) _ (fun _ _ => rfl) (permOracle_length _) m _ _ _ _ _ ⟨by simp, rfl, by simp, by simp⟩,
    tag_empty _ (permOracle_length _) _ (by simp), if_pos rfl, if_pos (Or.inr (by norm_num))]

/-- So trying one key succeeds with at least the probability that it is the right one, which is one divided by the number of keys. -/
theorem C140_one_try (k : AesKind) (m : Mode) (key : AesKey k) (user : Fin u) (right : Bool) :
    1 / 2 ^ (32 * k.Nk) ≤
      prob (fun q : (Fin u → AesKey k) × AesLike k => forges (gcmScheme permOracle m) right (fun i => q.2 (q.1 i)) ((forgeWith k key user).given q.2) []) := by
  have h1 : prob (fun q : (Fin u → AesKey k) × AesLike k => q.1 user = key) ≤ _ := Game.prob_mono (Q := fun q : (Fin u → AesKey k) × AesLike k =>
      forges (gcmScheme permOracle m) right (fun i => q.2 (q.1 i)) ((forgeWith k key user).given q.2) [])
    fun q hq => by
      rw [← hq]
      exact C140_right_key k m q.1 q.2 user right
  refine le_trans (le_of_eq ?_) h1
  rw [Game.prob_fst (fun keys : Fin u → AesKey k => keys user = key), Proofs.KeySearch.prob_at, card_aesKey, Nat.cast_pow, Nat.cast_ofNat]

/-! ## A concrete case -/

example (k : AesKind) (m : Mode) (key : AesKey k) (user : Fin 1000) (right : Bool) :
    prob (fun q : (Fin 1000 → AesKey k) × AesLike k => forges (gcmScheme permOracle m) right (fun i => q.2 (q.1 i)) ((forgeWith k key user).given q.2) []) ≤
      1 * 1 / 2 ^ 128 + 2 * (2 - 1) / 2 ^ 129 + (1000 * 1 + 1000 * (1000 - 1) / 2) / 2 ^ (32 * k.Nk) := by
  have := C140_forgery k m (forgeWith k key user) 1 1 2 2 1 (by norm_num) (by norm_num) (forgeWith_limits k key user).1 (forgeWith_limits k key user).2 right
  rwa [Nat.cast_one, Nat.cast_ofNat, Nat.cast_ofNat] at this

end CryptoPure.Props
