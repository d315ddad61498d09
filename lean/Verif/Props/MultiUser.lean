import Verif.Proofs.MultiGame
import Verif.Props.Reduction

/-! # C121: many keys

An application has many keys, and an attacker is content with breaking any of them. -/

namespace CryptoPure.Props
open CryptoPure.Model CryptoPure.MultiGame
open Distinguisher (Distinguisher advantage)
open Game (Scheme prob)

variable {u : Nat}

theorem multi_forges {K : Type} [Finite K] [Nonempty K] {S : Scheme K} {blocks : Nat → Nat → Nat} {n num den : Nat}
    {reject : (ct nonce data tag buffer : Bytes) → Option (Bytes × Bool)} (G : Game.Good S blocks n num den reject) (hden : 0 < den)
    (right : Bool) (A : Adversary u) (a : Nat) (hA : Within blocks n A a) :
    prob (fun k : Fin u → K => forges S right k A []) ≤ a * num / den := by
  have := Game.prob_forges (good_all (u := u) G) hden right (single A) a (within_single blocks n A a hA)
  have e : prob (fun k : Fin u → K => Game.forges (all u S) right k (single A) []) = _ :=
    prob_congr fun k => forges_single S right k A []
  rwa [e] at this

theorem multi_play {K : Type} [Finite K] [Nonempty K] {S : Scheme K} {blocks : Nat → Nat → Nat} {n num den : Nat}
    {reject : (ct nonce data tag buffer : Bytes) → Option (Bytes × Bool)} (G : Game.Good S blocks n num den reject) (hden : 0 < den)
    (A : Adversary u) (a : Nat) (hA : Within blocks n A a) :
    |prob (fun k : Fin u → K => play S false k A [] = true) - prob (fun k : Fin u → K => play S true k A [] = true)| ≤
      2 * (a * num / den) := by
  have := Game.prob_play (good_all (u := u) G) hden (single A) a (within_single blocks n A a hA)
  have e : ∀ right, prob (fun k : Fin u → K => Game.play (all u S) right k (single A) [] = true) =
      prob (fun k : Fin u → K => play S right k A [] = true) := fun right =>
    prob_congr fun k => by rw [← play_single S right k A []]; rfl
  rwa [e, e] at this

/-! ## Over random block functions -/

/-- **Forging, GCM.** Whatever the number of users, with `a` attempts altogether an attacker makes some user accept something that
user did not send with probability at most `a n / 2^128`: the same bound as for one key (C89). -/
theorem C121_gcm_forgery (m : Mode) (A : Adversary u) (a n : Nat) (hn : n ≤ 2 ^ 32 - 3) (hA : Within authCount n A a) (right : Bool) :
    prob (fun F : Fin u → BlockFunction => forges (gcmScheme oracle m) right F A []) ≤ a * n / 2 ^ 128 := by
  have := multi_forges (gcm_good m hn) (by norm_num) right A a hA
  push_cast at this
  exact this

/-- **Reading, GCM.** Telling which of two messages the users encrypt. -/
theorem C121_gcm_confidentiality (m : Mode) (A : Adversary u) (a n : Nat) (hn : n ≤ 2 ^ 32 - 3) (hA : Within authCount n A a) :
    |prob (fun F : Fin u → BlockFunction => play (gcmScheme oracle m) false F A [] = true) -
        prob (fun F : Fin u → BlockFunction => play (gcmScheme oracle m) true F A [] = true)| ≤ 2 * (a * n / 2 ^ 128) := by
  have := multi_play (gcm_good m hn) (by norm_num) A a hA
  push_cast at this
  exact this

/-- **Forging, ChaCha20-Poly1305.** -/
theorem C121_ccp_forgery (m : Mode) (A : Adversary u) (a n : Nat) (hn : n ≤ 2 ^ 34 - 16) (hA : Within authCount n A a) (right : Bool) :
    prob (fun G : Fin u → BlockSource => forges (ccpScheme m) right G A []) ≤ a * (1480 * n) / 2 ^ 106 := by
  have := multi_forges (ccp_good m hn) (by norm_num) right A a hA
  push_cast at this
  exact this

/-- **Reading, ChaCha20-Poly1305.** -/
theorem C121_ccp_confidentiality (m : Mode) (A : Adversary u) (a n : Nat) (hn : n ≤ 2 ^ 34 - 16) (hA : Within authCount n A a) :
    |prob (fun G : Fin u → BlockSource => play (ccpScheme m) false G A [] = true) -
        prob (fun G : Fin u → BlockSource => play (ccpScheme m) true G A [] = true)| ≤ 2 * (a * (1480 * n) / 2 ^ 106) := by
  have := multi_play (ccp_good m hn) (by norm_num) A a hA
  push_cast at this
  exact this

/-! ## The code under random keys -/

/-- How well `D` tells AES under `u` independent random keys from `u` independent random functions. -/
noncomputable abbrev aesAdvantages (u : Nat) (k : AesKind) (D : Distinguisher (Fin u × BitVec 128) (BitVec 128)) : ℚ :=
  advantage (fun (keys : Fin u → AesKey k) x => aesFunction k (keys x.1) x.2) (fun (F : Fin u → BlockFunction) x => F x.1 x.2) D

/-- How well `D` tells the ChaCha20 block function under `u` independent random keys from `u` independent random functions. -/
noncomputable abbrev chachaAdvantages (u : Nat) (D : Distinguisher (Fin u × ChaChaPoint) ChaChaBlock) : ℚ :=
  advantage (fun (keys : Fin u → ChaChaKey) x => chachaFunction (keys x.1) x.2)
    (fun (G : Fin u → BlockSource) (x : Fin u × ChaChaPoint) => G x.1 x.2.1 x.2.2) D

/-- The distinguishers run the attack on the code under the given keys, and ask for as many blocks as the attack makes the code
compute. -/
theorem C121_gcm_distinguisher (k : AesKind) (m : Mode) (A : Adversary u) (right : Bool) (s : Nat) (hs : Costs gcmCost A s)
    (keys : Fin u → AesKey k) :
    (forgeryTest (gcmScheme oracle m) gcmPoints right A).Asks s ∧ (guessTest (gcmScheme oracle m) gcmPoints right A).Asks s ∧
    ((forgeryTest (gcmScheme oracle m) gcmPoints right A).run (fun x => aesFunction k (keys x.1) x.2) = true ↔
      forges (aesGcm k m) right keys A []) ∧
    (guessTest (gcmScheme oracle m) gcmPoints right A).run (fun x => aesFunction k (keys x.1) x.2) =
      play (aesGcm k m) right keys A [] := by
  have h1 := tests_ask (S := gcmScheme oracle m) gcmPoints_length right A s hs
  have h2 := tests_run (gcm_local m) right A fun i => aesFunction k (keys i)
  have h3 := over_congr (S := gcmScheme oracle m) (S' := aesGcm k m) keys (aesFunction k) (fun key => aesGcm_eq k m key) right A []
  exact ⟨h1.1, h1.2, h2.1.trans h3.2.symm, h2.2.trans h3.1.symm⟩

/-- The same for ChaCha20-Poly1305. -/
theorem C121_ccp_distinguisher (m : Mode) (A : Adversary u) (right : Bool) (s : Nat) (hs : Costs ccpCost A s)
    (keys : Fin u → ChaChaKey) :
    (forgeryTest (ccpOver m) ccpPoints right A).Asks s ∧ (guessTest (ccpOver m) ccpPoints right A).Asks s ∧
    ((forgeryTest (ccpOver m) ccpPoints right A).run (fun x => chachaFunction (keys x.1) x.2) = true ↔
      forges (chachaPoly m) right keys A []) ∧
    (guessTest (ccpOver m) ccpPoints right A).run (fun x => chachaFunction (keys x.1) x.2) =
      play (chachaPoly m) right keys A [] := by
  have h1 := tests_ask (S := ccpOver m) ccpPoints_length right A s hs
  have h2 := tests_run (ccp_local m) right A fun i => chachaFunction (keys i)
  have h3 := over_congr (S := ccpOver m) (S' := chachaPoly m) keys chachaFunction (fun key => chachaPoly_eq m key) right A []
  exact ⟨h1.1, h1.2, h2.1.trans h3.2.symm, h2.2.trans h3.1.symm⟩

/-- **Forging AES-GCM of the crate with many random keys.** -/
theorem C121_aes_forgery (k : AesKind) (m : Mode) (A : Adversary u) (a n : Nat) (hn : n ≤ 2 ^ 32 - 3) (hA : Within authCount n A a)
    (right : Bool) :
    prob (fun keys : Fin u → AesKey k => forges (aesGcm k m) right keys A []) ≤
      aesAdvantages u k (forgeryTest (gcmScheme oracle m) gcmPoints right A) + a * n / 2 ^ 128 := by
  have h1 := C121_gcm_forgery m A a n hn hA right
  have e1 : prob (fun keys : Fin u → AesKey k => forges (aesGcm k m) right keys A []) = prob (fun keys : Fin u → AesKey k =>
      (forgeryTest (gcmScheme oracle m) gcmPoints right A).run (fun x => aesFunction k (keys x.1) x.2) = true) :=
    prob_congr fun keys => by
      rw [(over_congr (S := gcmScheme oracle m) (S' := aesGcm k m) keys (aesFunction k) (fun key => aesGcm_eq k m key) right A []).2]
      exact (tests_run (gcm_local m) right A _).1.symm
  have e2 : prob (fun F : Fin u → BlockFunction => forges (gcmScheme oracle m) right F A []) = prob (fun F : Fin u → BlockFunction =>
      (forgeryTest (gcmScheme oracle m) gcmPoints right A).run (fun x => F x.1 x.2) = true) :=
    prob_congr fun F => (tests_run (gcm_local m) right A F).1.symm
  rw [e2] at h1
  rw [e1]
  have h2 := le_abs_self (prob (fun keys : Fin u → AesKey k =>
      (forgeryTest (gcmScheme oracle m) gcmPoints right A).run (fun x => aesFunction k (keys x.1) x.2) = true) -
    prob (fun F : Fin u → BlockFunction => (forgeryTest (gcmScheme oracle m) gcmPoints right A).run (fun x => F x.1 x.2) = true))
  change _ ≤ aesAdvantages u k _ at h2
  linarith

/-- **Reading AES-GCM of the crate with many random keys.** -/
theorem C121_aes_confidentiality (k : AesKind) (m : Mode) (A : Adversary u) (a n : Nat) (hn : n ≤ 2 ^ 32 - 3)
    (hA : Within authCount n A a) :
    |prob (fun keys : Fin u → AesKey k => play (aesGcm k m) false keys A [] = true) -
        prob (fun keys : Fin u → AesKey k => play (aesGcm k m) true keys A [] = true)| ≤
      aesAdvantages u k (guessTest (gcmScheme oracle m) gcmPoints false A) +
      aesAdvantages u k (guessTest (gcmScheme oracle m) gcmPoints true A) + 2 * (a * n / 2 ^ 128) := by
  have h1 := C121_gcm_confidentiality m A a n hn hA
  have e1 : ∀ right, prob (fun keys : Fin u → AesKey k => play (aesGcm k m) right keys A [] = true) = prob (fun keys : Fin u → AesKey k =>
      (guessTest (gcmScheme oracle m) gcmPoints right A).run (fun x => aesFunction k (keys x.1) x.2) = true) := fun right =>
    prob_congr fun keys => by
      rw [(over_congr (S := gcmScheme oracle m) (S' := aesGcm k m) keys (aesFunction k) (fun key => aesGcm_eq k m key) right A []).1,
        ← (tests_run (gcm_local m) right A _).2]
  have e2 : ∀ right, prob (fun F : Fin u → BlockFunction => play (gcmScheme oracle m) right F A [] = true) =
      prob (fun F : Fin u → BlockFunction => (guessTest (gcmScheme oracle m) gcmPoints right A).run (fun x => F x.1 x.2) = true) :=
    fun right => prob_congr fun F => by rw [← (tests_run (gcm_local m) right A F).2]
  rw [e1, e1]
  rw [e2, e2] at h1
  have h2 : ∀ right, |prob (fun keys : Fin u → AesKey k =>
      (guessTest (gcmScheme oracle m) gcmPoints right A).run (fun x => aesFunction k (keys x.1) x.2) = true) -
    prob (fun F : Fin u → BlockFunction => (guessTest (gcmScheme oracle m) gcmPoints right A).run (fun x => F x.1 x.2) = true)| ≤
      aesAdvantages u k (guessTest (gcmScheme oracle m) gcmPoints right A) := fun right => le_refl _
  have h3 := abs_le.mp (h2 false)
  have h4 := abs_le.mp (h2 true)
  have h5 := abs_le.mp h1
  rw [abs_le]
  constructor <;> linarith [h3.1, h3.2, h4.1, h4.2, h5.1, h5.2]

/-- **Forging ChaCha20-Poly1305 of the crate with many random keys.** -/
theorem C121_chacha_forgery (m : Mode) (A : Adversary u) (a n : Nat) (hn : n ≤ 2 ^ 34 - 16) (hA : Within authCount n A a) (right : Bool) :
    prob (fun keys : Fin u → ChaChaKey => forges (chachaPoly m) right keys A []) ≤
      chachaAdvantages u (forgeryTest (ccpOver m) ccpPoints right A) + a * (1480 * n) / 2 ^ 106 := by
  have h1 := C121_ccp_forgery m A a n hn hA right
  have e1 : prob (fun keys : Fin u → ChaChaKey => forges (chachaPoly m) right keys A []) = prob (fun keys : Fin u → ChaChaKey =>
      (forgeryTest (ccpOver m) ccpPoints right A).run (fun x => chachaFunction (keys x.1) x.2) = true) :=
    prob_congr fun keys => by
      rw [(over_congr (S := ccpOver m) (S' := chachaPoly m) keys chachaFunction (fun key => chachaPoly_eq m key) right A []).2]
      exact (tests_run (ccp_local m) right A _).1.symm
  have e2 : prob (fun G : Fin u → BlockSource => forges (ccpScheme m) right G A []) = prob (fun G : Fin u → BlockSource =>
      (forgeryTest (ccpOver m) ccpPoints right A).run (fun x => G x.1 x.2.1 x.2.2) = true) :=
    prob_congr fun G => by
      rw [(over_congr (S := ccpOver m) (S' := ccpScheme m) G (fun G x => G x.1 x.2) (fun _ => ⟨rfl, rfl⟩) right A []).2]
      exact (tests_run (ccp_local m) right A fun i x => G i x.1 x.2).1.symm
  rw [e2] at h1
  rw [e1]
  have h2 := le_abs_self (prob (fun keys : Fin u → ChaChaKey =>
      (forgeryTest (ccpOver m) ccpPoints right A).run (fun x => chachaFunction (keys x.1) x.2) = true) -
    prob (fun G : Fin u → BlockSource => (forgeryTest (ccpOver m) ccpPoints right A).run (fun x => G x.1 x.2.1 x.2.2) = true))
  change _ ≤ chachaAdvantages u _ at h2
  linarith

/-- **Reading ChaCha20-Poly1305 of the crate with many random keys.** -/
theorem C121_chacha_confidentiality (m : Mode) (A : Adversary u) (a n : Nat) (hn : n ≤ 2 ^ 34 - 16) (hA : Within authCount n A a) :
    |prob (fun keys : Fin u → ChaChaKey => play (chachaPoly m) false keys A [] = true) -
        prob (fun keys : Fin u → ChaChaKey => play (chachaPoly m) true keys A [] = true)| ≤
      chachaAdvantages u (guessTest (ccpOver m) ccpPoints false A) +
      chachaAdvantages u (guessTest (ccpOver m) ccpPoints true A) + 2 * (a * (1480 * n) / 2 ^ 106) := by
  have h1 := C121_ccp_confidentiality m A a n hn hA
  have e1 : ∀ right, prob (fun keys : Fin u → ChaChaKey => play (chachaPoly m) right keys A [] = true) = prob (fun keys : Fin u → ChaChaKey =>
      (guessTest (ccpOver m) ccpPoints right A).run (fun x => chachaFunction (keys x.1) x.2) = true) := fun right =>
    prob_congr fun keys => by
      rw [(over_congr (S := ccpOver m) (S' := chachaPoly m) keys chachaFunction (fun key => chachaPoly_eq m key) right A []).1,
        ← (tests_run (ccp_local m) right A _).2]
  have e2 : ∀ right, prob (fun G : Fin u → BlockSource => play (ccpScheme m) right G A [] = true) =
      prob (fun G : Fin u → BlockSource => (guessTest (ccpOver m) ccpPoints right A).run (fun x => G x.1 x.2.1 x.2.2) = true) :=
    fun right => prob_congr fun G => by
      rw [(over_congr (S := ccpOver m) (S' := ccpScheme m) G (fun G x => G x.1 x.2) (fun _ => ⟨rfl, rfl⟩) right A []).1,
        ← (tests_run (ccp_local m) right A fun i x => G i x.1 x.2).2]
  rw [e1, e1]
  rw [e2, e2] at h1
  have h2 : ∀ right, |prob (fun keys : Fin u → ChaChaKey =>
      (guessTest (ccpOver m) ccpPoints right A).run (fun x => chachaFunction (keys x.1) x.2) = true) -
    prob (fun G : Fin u → BlockSource => (guessTest (ccpOver m) ccpPoints right A).run (fun x => G x.1 x.2.1 x.2.2) = true)| ≤
      chachaAdvantages u (guessTest (ccpOver m) ccpPoints right A) := fun right => le_refl _
  have h3 := abs_le.mp (h2 false)
  have h4 := abs_le.mp (h2 true)
  have h5 := abs_le.mp h1
  rw [abs_le]
  constructor <;> linarith [h3.1, h3.2, h4.1, h4.2, h5.1, h5.2]

/-! ## A concrete case -/

/-- An adversary that presents what user 0 sent to user 1, under the same nonce. -/
def crossUser : Adversary 2 :=
  .encrypt 0 (zeros 12) [] (List.replicate 20 0) (List.replicate 20 1) (zeros 20) fun r =>
    match r with
    | none => .stop false
    | some (ct, t) => .decrypt 1 (zeros 12) [] (ct.take 20) t (zeros 20) fun r => .stop (r.isSome && (r.map Prod.snd == some true))

theorem crossUser_within : Within authCount 3 crossUser 1 := by
  refine ⟨by decide, fun r => ?_⟩
  match r with
  | none => trivial
  | some (ct, t) =>
    refine ⟨?_, 0, rfl, fun _ => trivial⟩
    have h : (ct.take 20).length ≤ 20 := by simp
    show (0 + 15) / 16 + (_ + 15) / 16 + 1 ≤ 3
    omega

example : prob (fun keys => forges (aesGcm .aes128 .release) true keys crossUser []) ≤
    aesAdvantages 2 .aes128 (forgeryTest (gcmScheme oracle .release) gcmPoints true crossUser) + 1 * 3 / 2 ^ 128 := by
  simpa using C121_aes_forgery .aes128 .release crossUser 1 3 (by norm_num) crossUser_within true

example : prob (fun G => forges (ccpScheme .debug) false G crossUser []) ≤ 1 * (1480 * 3) / 2 ^ 106 := by
  simpa using C121_ccp_forgery .debug crossUser 1 3 (by norm_num) crossUser_within false

/-- Presenting a message to the other user counts as a forgery: if both have the same key, it succeeds. -/
example (F : BlockFunction) : forges (gcmScheme oracle .release) false (fun _ => F) crossUser [] := by
  have hp : Proofs.Gcm.Permitted (List.replicate 20 0) (zeros 12) [] (zeros 20) := ⟨by simp, by simp, by simp, by simp⟩
  have e : Model.Gcm.encrypt oracle .release F (List.replicate 20 0) (zeros 12) [] (zeros 20) = _ :=
    Proofs.Gcm.encrypt_ok oracle F _ (fun _ _ => rfl) (oracle_length F) .release _ _ _ _ hp (Or.inl rfl)
  have hl := Proofs.Gcm.crypt_length _ (oracle_length F) (zeros 12) (by simp) (List.replicate 20 0)
  rw [List.length_replicate] at hl
  unfold crossUser
  simp only [forges, List.map_nil, List.not_mem_nil, List.length_replicate, ne_eq, not_true_eq_false, or_self, if_false,
    Bool.false_eq_true, gcmScheme, e]
  rw [List.take_of_length_le (by rw [hl])]
  simp only [List.mem_singleton, Prod.mk.injEq, show ((1 : Fin 2) = 0) = False by simp, false_and, if_false]
  refine Or.inl ?_
  rw [Proofs.Gcm.decrypt_eq oracle F _ (fun _ _ => rfl) (oracle_length F) .release _ _ _ _ _ ⟨by simp, hl.trans (by simp), by rw [hl]; norm_num, by simp⟩, if_pos rfl,
    if_pos (Or.inl rfl)]
  exact ⟨_, rfl⟩

end CryptoPure.Props
