import Verif.Props.RandomNonce
import Verif.Props.Reduction
import Verif.Props.HmacPrf

/-! # C126: the AEADs of the crate with random nonces

C119 is about random block functions; this is about the code under a random key, as in C120. The distinguishers draw the nonces themselves. -/

namespace CryptoPure.Props
open CryptoPure.Model
open Game (Scheme Log prob prob_or prob_mono prob_fst prob_snd prob_equiv prob_prod prob_prod_le)
open RandomNonceGame (Nonce guessProb forgeProb)
open Distinguisher (Distinguisher coinAdvantage)

variable {K I α β : Type} {q : Nat}

instance : Nonempty Nonce := ⟨⟨zeros 12, by simp⟩⟩

open Classical in
/-- Draw `q` nonces. If one comes up twice, give up; otherwise run the test for the adversary that uses these nonces. -/
noncomputable def withNonces (q : Nat) (T : Game.Adversary → Distinguisher α β) (A : RandomNonceGame.Adversary) (v : Fin q → Nonce) : Distinguisher α β :=
  if (List.ofFn v).Nodup then T (fixNonces A (List.ofFn v)) else .verdict false

theorem withNonces_run (T : Game.Adversary → Distinguisher α β) (A : RandomNonceGame.Adversary) (v : Fin q → Nonce) (F : α → β) :
    (withNonces q T A v).run F = true ↔ (List.ofFn v).Nodup ∧ (T (fixNonces A (List.ofFn v))).run F = true := by
  unfold withNonces
  split
  · next h => simp [h]
  · next h => simp [h, Distinguisher.run]

theorem withNonces_asks (T : Game.Adversary → Distinguisher α β) (A : RandomNonceGame.Adversary) (s : Nat) (v : Fin q → Nonce)
    (h : (T (fixNonces A (List.ofFn v))).Asks s) : (withNonces q T A v).Asks s := by
  unfold withNonces
  split
  · exact h
  · trivial

theorem costs_mono {cost : Nat → Nat} (A : Game.Adversary) {s t : Nat} (h : Distinguisher.Costs cost A s) (hst : s ≤ t) :
    Distinguisher.Costs cost A t := by
  induction A generalizing s t with
  | stop g => trivial
  | encrypt nonce data msg msg' buffer next ih =>
    obtain ⟨s', rfl, h⟩ := h
    exact ⟨t - cost msg.length, by omega, fun r => ih r (h r) (by omega)⟩
  | decrypt nonce data ct tag buffer next ih =>
    obtain ⟨s', rfl, h⟩ := h
    exact ⟨t - cost ct.length, by omega, fun r => ih r (h r) (by omega)⟩

theorem fixNonces_costs (cost : Nat → Nat) (A : RandomNonceGame.Adversary) (s : Nat) (h : RandomNonceGame.Costs cost A s) (vs : List Nonce) :
    Distinguisher.Costs cost (fixNonces A vs) s := by
  induction A generalizing s vs with
  | stop g => trivial
  | encrypt data msg msg' buffer next ih =>
    obtain ⟨s, rfl, h⟩ := h
    cases vs with
    | nil => exact costs_mono _ (ih _ _ s (h [] none) []) (by omega)
    | cons v vs => exact ⟨s, rfl, fun r => ih v.1 r s (h v.1 r) vs⟩
  | decrypt nonce data ct t buffer next ih =>
    obtain ⟨s, rfl, h⟩ := h
    exact ⟨s, rfl, fun r => ih r s (h r) vs⟩

/-- Forging, for any cipher. -/
theorem random_forgery [Finite K] [Nonempty K] [Finite I] [Nonempty I] (S : Scheme K) (right : Bool) (real : K → α → β) (ideal : I → α → β)
    (T : Game.Adversary → Distinguisher α β) (hT : ∀ A k, (T A).run (real k) = true ↔ Game.forges S right k A []) (A : RandomNonceGame.Adversary)
    (e : ℚ) (he : 0 ≤ e) (h : ∀ vs, prob (fun i => (T (fixNonces A vs)).run (ideal i) = true) ≤ e) :
    forgeProb S q right A ≤ coinAdvantage real ideal (withNonces q T A) + e + q * (q - 1) / 2 ^ 97 := by
  have h1 : forgeProb S q right A ≤ prob (fun x : K × (Fin q → Nonce) => (withNonces q T A x.2).run (real x.1) = true) + q * (q - 1) / 2 ^ 97 := by
    refine le_trans (prob_mono fun x hx => ?_) (le_trans (prob_or (fun x : K × (Fin q → Nonce) => (withNonces q T A x.2).run (real x.1) = true)
      (fun x => ¬ (List.ofFn x.2).Nodup)) ?_)
    · by_cases hn : (List.ofFn x.2).Nodup
      · refine Or.inl ((withNonces_run T A x.2 _).mpr ⟨hn, (hT _ _).mpr ?_⟩)
        exact (play_fixNonces S right x.1 A _ [] hn (by simp)).2.mp hx
      · exact Or.inr hn
    · rw [prob_snd (P := fun v : Fin q → Nonce => ¬ (List.ofFn v).Nodup)]
      linarith [prob_repeat q]
  have h2 : prob (fun x : I × (Fin q → Nonce) => (withNonces q T A x.2).run (ideal x.1) = true) ≤ e := by
    refine prob_prod_le _ _ fun v => ?_
    by_cases hn : (List.ofFn v).Nodup
    · refine le_trans (prob_mono fun i hi => ?_) (h (List.ofFn v))
      exact ((withNonces_run T A v _).mp hi).2
    · refine le_trans (le_of_eq ?_) he
      have : {i | (withNonces q T A v).run (ideal i) = true} = ∅ := by
        ext i
        simp only [Set.mem_ofPred_eq, Set.mem_empty_iff_false, iff_false, withNonces_run]
        exact fun h => hn h.1
      unfold prob
      simp only [this]
      simp
  have h3 := Proofs.HmacPrf.real_le real ideal (withNonces q T A)
  linarith

/-- Reading, for any cipher. -/
theorem random_reading [Finite K] [Nonempty K] [Finite I] [Nonempty I] (S : Scheme K) (real : K → α → β) (ideal : I → α → β)
    (T : Bool → Game.Adversary → Distinguisher α β) (hT : ∀ r A k, (T r A).run (real k) = Game.play S r k A []) (A : RandomNonceGame.Adversary)
    (e : ℚ) (he : 0 ≤ e) (h : ∀ vs, |prob (fun i => (T false (fixNonces A vs)).run (ideal i) = true) -
      prob (fun i => (T true (fixNonces A vs)).run (ideal i) = true)| ≤ e) :
    |guessProb S q false A - guessProb S q true A| ≤
      coinAdvantage real ideal (withNonces q (T false) A) + coinAdvantage real ideal (withNonces q (T true) A) + e + q * (q - 1) / 2 ^ 97 := by
  have hq := prob_repeat q
  have e1 : ∀ r, prob (fun x : K × (Fin q → Nonce) => (withNonces q (T r) A x.2).run (real x.1) = true) ≤ guessProb S q r A := fun r =>
    prob_mono fun x hx => by
      obtain ⟨h1, h2⟩ := (withNonces_run (T r) A x.2 _).mp hx
      rw [hT] at h2
      rw [(play_fixNonces S r x.1 A _ [] h1 (by simp)).1]
      exact h2
  have e2 : ∀ r, guessProb S q r A ≤ prob (fun x : K × (Fin q → Nonce) => (withNonces q (T r) A x.2).run (real x.1) = true) + q * (q - 1) / 2 ^ 97 := fun r => by
    refine le_trans (prob_mono fun x hx => ?_) (le_trans (prob_or (fun x : K × (Fin q → Nonce) => (withNonces q (T r) A x.2).run (real x.1) = true)
      (fun x => ¬ (List.ofFn x.2).Nodup)) ?_)
    · by_cases hn : (List.ofFn x.2).Nodup
      · refine Or.inl ((withNonces_run (T r) A x.2 _).mpr ⟨hn, ?_⟩)
        rw [hT, ← (play_fixNonces S r x.1 A _ [] hn (by simp)).1]
        exact hx
      · exact Or.inr hn
    · rw [prob_snd (P := fun v : Fin q → Nonce => ¬ (List.ofFn v).Nodup)]
      linarith
  have h2 : |prob (fun x : I × (Fin q → Nonce) => (withNonces q (T false) A x.2).run (ideal x.1) = true) -
      prob (fun x : I × (Fin q → Nonce) => (withNonces q (T true) A x.2).run (ideal x.1) = true)| ≤ e := by
    have : Fintype (Fin q → Nonce) := Fintype.ofFinite _
    have hc : (0 : ℚ) < Fintype.card (Fin q → Nonce) := by exact_mod_cast Fintype.card_pos
    rw [prob_prod, prob_prod, ← sub_div, ← Finset.sum_sub_distrib, abs_div, abs_of_pos hc, div_le_iff₀ hc]
    refine (Finset.abs_sum_le_sum_abs _ _).trans ?_
    calc _ ≤ ∑ _v : Fin q → Nonce, e := Finset.sum_le_sum fun v _ => ?_
      _ = _ := by rw [Finset.sum_const, Finset.card_univ, nsmul_eq_mul, mul_comm]
    by_cases hn : (List.ofFn v).Nodup
    · have := h (List.ofFn v)
      simpa only [withNonces_run, hn, true_and] using this
    · simpa [withNonces_run, hn, prob] using he
  have h3 : ∀ r, |prob (fun x : K × (Fin q → Nonce) => (withNonces q (T r) A x.2).run (real x.1) = true) -
    prob (fun x : I × (Fin q → Nonce) => (withNonces q (T r) A x.2).run (ideal x.1) = true)| ≤ coinAdvantage real ideal (withNonces q (T r) A) :=
    fun r => le_refl _
  have f1 := abs_le.mp (h3 false)
  have f2 := abs_le.mp (h3 true)
  have f3 := abs_le.mp h2
  rw [abs_le]
  constructor <;> linarith [e1 false, e1 true, e2 false, e2 true, f1.1, f1.2, f2.1, f2.2, f3.1, f3.2]

/-! ## The two ciphers of the crate -/

/-- How well `D`, which may draw nonces, tells AES under a random key from a random permutation of the blocks. -/
noncomputable abbrev aesNonceAdvantage (k : AesKind) (D : (Fin q → Nonce) → Distinguisher (BitVec 128) (BitVec 128)) : ℚ :=
  coinAdvantage (aesFunction k) (fun π : Equiv.Perm (BitVec 128) => (π : BitVec 128 → BitVec 128)) D

/-- How well `D`, which may draw nonces, tells the ChaCha20 block function under a random key from a random function. -/
noncomputable abbrev chachaNonceAdvantage (D : (Fin q → Nonce) → Distinguisher ChaChaPoint ChaChaBlock) : ℚ :=
  coinAdvantage chachaFunction (fun F : ChaChaPoint → ChaChaBlock => F) D

/-- The distinguishers ask for as many blocks as the attack makes the code encrypt, whatever nonces they draw. -/
theorem C126_gcm_distinguisher (m : Mode) (A : RandomNonceGame.Adversary) (s : Nat) (hs : RandomNonceGame.Costs gcmCost A s) (right : Bool)
    (v : Fin q → Nonce) : (withNonces q (aesFromForger m right) A v).Asks s ∧ (withNonces q (aesFromGuesser m right) A v).Asks s := by
  have := C120_gcm_distinguisher m (fixNonces A (List.ofFn v)) s (fixNonces_costs gcmCost A s hs _) right
  exact ⟨withNonces_asks _ _ _ _ this.1, withNonces_asks _ _ _ _ this.2⟩

/-- The distinguishers ask for as many blocks as the attack makes the code compute, whatever nonces they draw. -/
theorem C126_ccp_distinguisher (m : Mode) (A : RandomNonceGame.Adversary) (s : Nat) (hs : RandomNonceGame.Costs ccpCost A s) (right : Bool)
    (v : Fin q → Nonce) : (withNonces q (chachaFromForger m right) A v).Asks s ∧ (withNonces q (chachaFromGuesser m right) A v).Asks s := by
  have := C120_ccp_distinguisher m (fixNonces A (List.ofFn v)) s (fixNonces_costs ccpCost A s hs _) right
  exact ⟨withNonces_asks _ _ _ _ this.1, withNonces_asks _ _ _ _ this.2⟩

instance (k : AesKind) : Nonempty (AesKey k) := ⟨⟨zeros (4 * k.Nk), by simp⟩⟩

/-- **Forging AES-GCM of the crate under a random key, with random nonces.** -/
theorem C126_gcm_forgery (k : AesKind) (m : Mode) (A : RandomNonceGame.Adversary) (a n s : Nat) (hn : n ≤ 2 ^ 32 - 3)
    (hA : RandomNonceGame.Within authCount n A a) (hs : RandomNonceGame.Costs gcmCost A s) (right : Bool) :
    forgeProb (aesGcm k m) q right A ≤
      aesNonceAdvantage k (withNonces q (aesFromForger m right) A) + (a * n / 2 ^ 128 + s * (s - 1) / 2 ^ 129) + q * (q - 1) / 2 ^ 97 := by
  have hb : ∀ vs, prob (fun π : Equiv.Perm (BitVec 128) => (aesFromForger m right (fixNonces A vs)).run π = true) ≤
      a * n / 2 ^ 128 + s * (s - 1) / 2 ^ 129 := fun vs => by
    have h1 := C91_gcm_permutation_forgery m (fixNonces A vs) a n s hn (fixNonces_within authCount n A a hA vs)
      (costs_blockCalls _ s (fixNonces_costs gcmCost A s hs vs)) right
    refine le_trans (le_of_eq (prob_congr fun π => ?_)) h1
    rw [forges_congr (perm_enc m π) (perm_dec m π)]
    exact Distinguisher.forgeryTest_run (gcm_local m) right _ _ []
  exact random_forgery (aesGcm k m) right (aesFunction k) _ (aesFromForger m right) (fun A key => (C120_gcm_runs k m A right key).1) A _
    ((prob_nonneg _).trans (hb [])) hb

/-- **Reading AES-GCM of the crate under a random key, with random nonces.** -/
theorem C126_gcm_confidentiality (k : AesKind) (m : Mode) (A : RandomNonceGame.Adversary) (a n s : Nat) (hn : n ≤ 2 ^ 32 - 3)
    (hA : RandomNonceGame.Within authCount n A a) (hs : RandomNonceGame.Costs gcmCost A s) :
    |guessProb (aesGcm k m) q false A - guessProb (aesGcm k m) q true A| ≤
      aesNonceAdvantage k (withNonces q (aesFromGuesser m false) A) + aesNonceAdvantage k (withNonces q (aesFromGuesser m true) A) +
      (2 * (a * n / 2 ^ 128) + s * (s - 1) / 2 ^ 128) + q * (q - 1) / 2 ^ 97 := by
  have hb : ∀ vs, |prob (fun π : Equiv.Perm (BitVec 128) => (aesFromGuesser m false (fixNonces A vs)).run π = true) -
      prob (fun π : Equiv.Perm (BitVec 128) => (aesFromGuesser m true (fixNonces A vs)).run π = true)| ≤
      2 * (a * n / 2 ^ 128) + s * (s - 1) / 2 ^ 128 := fun vs => by
    have h1 := C91_gcm_permutation_confidentiality m (fixNonces A vs) a n s hn (fixNonces_within authCount n A a hA vs)
      (costs_blockCalls _ s (fixNonces_costs gcmCost A s hs vs))
    have e : ∀ r, prob (fun π : Equiv.Perm (BitVec 128) => (aesFromGuesser m r (fixNonces A vs)).run π = true) =
        prob (fun π => Game.play (gcmScheme permOracle m) r π (fixNonces A vs) [] = true) := fun r => prob_congr fun π => by
      rw [play_congr (perm_enc m π) (perm_dec m π), ← Distinguisher.guessTest_run (gcm_local m)]
      rfl
    rw [e, e]
    exact h1
  exact random_reading (aesGcm k m) (aesFunction k) _ (aesFromGuesser m) (fun r A key => (C120_gcm_runs k m A r key).2) A _
    ((abs_nonneg _).trans (hb [])) hb

/-- **Forging ChaCha20-Poly1305 of the crate under a random key, with random nonces.** -/
theorem C126_ccp_forgery (m : Mode) (A : RandomNonceGame.Adversary) (a n : Nat) (hn : n ≤ 2 ^ 34 - 16)
    (hA : RandomNonceGame.Within authCount n A a) (right : Bool) :
    forgeProb (chachaPoly m) q right A ≤
      chachaNonceAdvantage (withNonces q (chachaFromForger m right) A) + a * (1480 * n) / 2 ^ 106 + q * (q - 1) / 2 ^ 97 := by
  have hb : ∀ vs, prob (fun F : ChaChaPoint → ChaChaBlock => (chachaFromForger m right (fixNonces A vs)).run F = true) ≤
      a * (1480 * n) / 2 ^ 106 := fun vs => by
    have h1 := C90_ccp_adaptive_forgery m (fixNonces A vs) a n hn (fixNonces_within authCount n A a hA vs) right
    refine le_trans (le_of_eq ?_) h1
    rw [prob_uncurry]
    refine prob_congr fun G => ?_
    have := Distinguisher.forgeryTest_run (ccp_local m) right (fun x => G x.1 x.2) (fixNonces A vs) []
    rw [show chachaFromForger m right (fixNonces A vs) = Distinguisher.forgeryTest (ccpOver m) ccpPoints right (fixNonces A vs) [] from rfl, this]
    rw [forges_congr (S := ccpScheme m) (S' := ccpOver m) (k := G) (k' := fun x => G x.1 x.2) rfl rfl]
  exact random_forgery (chachaPoly m) right chachaFunction _ (chachaFromForger m right) (fun A key => (C120_ccp_runs m A right key).1) A _
    ((prob_nonneg _).trans (hb [])) hb

/-- **Reading ChaCha20-Poly1305 of the crate under a random key, with random nonces.** -/
theorem C126_ccp_confidentiality (m : Mode) (A : RandomNonceGame.Adversary) (a n : Nat) (hn : n ≤ 2 ^ 34 - 16)
    (hA : RandomNonceGame.Within authCount n A a) :
    |guessProb (chachaPoly m) q false A - guessProb (chachaPoly m) q true A| ≤
      chachaNonceAdvantage (withNonces q (chachaFromGuesser m false) A) + chachaNonceAdvantage (withNonces q (chachaFromGuesser m true) A) +
      2 * (a * (1480 * n) / 2 ^ 106) + q * (q - 1) / 2 ^ 97 := by
  have hb : ∀ vs, |prob (fun F : ChaChaPoint → ChaChaBlock => (chachaFromGuesser m false (fixNonces A vs)).run F = true) -
      prob (fun F : ChaChaPoint → ChaChaBlock => (chachaFromGuesser m true (fixNonces A vs)).run F = true)| ≤
      2 * (a * (1480 * n) / 2 ^ 106) := fun vs => by
    have h1 := C90_ccp_adaptive_confidentiality m (fixNonces A vs) a n hn (fixNonces_within authCount n A a hA vs)
    have e : ∀ r, prob (fun F : ChaChaPoint → ChaChaBlock => (chachaFromGuesser m r (fixNonces A vs)).run F = true) =
        prob (fun G => Game.play (ccpScheme m) r G (fixNonces A vs) [] = true) := fun r => by
      rw [prob_uncurry]
      refine prob_congr fun G => ?_
      have := Distinguisher.guessTest_run (ccp_local m) r (fun x => G x.1 x.2) (fixNonces A vs) []
      rw [show chachaFromGuesser m r (fixNonces A vs) = Distinguisher.guessTest (ccpOver m) ccpPoints r (fixNonces A vs) [] from rfl, this]
      rw [play_congr (S := ccpScheme m) (S' := ccpOver m) (k := G) (k' := fun x => G x.1 x.2) rfl rfl]
    rw [e, e]
    exact h1
  exact random_reading (chachaPoly m) chachaFunction _ (chachaFromGuesser m) (fun r A key => (C120_ccp_runs m A r key).2) A _
    ((abs_nonneg _).trans (hb [])) hb

/-! ## A concrete case -/

theorem exampleRandomNonce_within : RandomNonceGame.Within authCount 2 exampleRandomNonce 1 := by
  refine ⟨by decide, fun v r => ⟨by decide, fun v' r' => ⟨?_, 0, rfl, fun o => trivial⟩⟩⟩
  unfold authCount
  have : ((r.map Prod.fst).getD [] |>.take 1).length ≤ 1 := by rw [List.length_take]; omega
  simp only [List.length_nil]
  omega

theorem exampleRandomNonce_costs : RandomNonceGame.Costs gcmCost exampleRandomNonce 9 := by
  refine ⟨6, by decide, fun v r => ⟨3, by decide, fun v' r' => ⟨3 - gcmCost ((r.map Prod.fst).getD [] |>.take 1).length, ?_, fun o => trivial⟩⟩⟩
  have : ((r.map Prod.fst).getD [] |>.take 1).length ≤ 1 := by rw [List.length_take]; omega
  unfold gcmCost
  omega

/-- Two encryptions with random nonces and an attempt to exchange the tags. -/
example (m : Mode) : forgeProb (aesGcm .aes256 m) 2 false exampleRandomNonce ≤
    aesNonceAdvantage .aes256 (withNonces 2 (aesFromForger m false) exampleRandomNonce) + 1 / 2 ^ 95 := by
  have := C126_gcm_forgery (q := 2) .aes256 m exampleRandomNonce 1 2 9 (by decide) exampleRandomNonce_within exampleRandomNonce_costs false
  norm_num at this ⊢
  linarith

/-- The distinguisher draws the nonces and asks for at most nine blocks. -/
example (m : Mode) (v : Fin 2 → Nonce) : (withNonces 2 (aesFromForger m false) exampleRandomNonce v).Asks 9 :=
  (C126_gcm_distinguisher m exampleRandomNonce 9 exampleRandomNonce_costs false v).1

end CryptoPure.Props
