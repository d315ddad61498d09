import Verif.Spec.RandomNonceGame
import Verif.Props.AeadGame
import Verif.Proofs.Prob
import Mathlib.Tactic.FieldSimp
import Mathlib.Data.Fin.Tuple.Basic

/-! # C119: random nonces -/

namespace CryptoPure.Props
open CryptoPure.Model
open Game (Scheme Log prob)
open RandomNonceGame (Nonce guessProb forgeProb)

/-- The adversary of the game with chosen nonces that uses the nonces of a list. -/
def fixNonces : RandomNonceGame.Adversary → List Nonce → Game.Adversary
  | .stop g, _ => .stop g
  | .encrypt _ _ _ _ next, [] => fixNonces (next [] none) []
  | .encrypt data msg msg' buffer next, v :: vs => .encrypt v.1 data msg msg' buffer fun r => fixNonces (next v.1 r) vs
  | .decrypt nonce data ct t buffer next, vs => .decrypt nonce data ct t buffer fun r => fixNonces (next r) vs

theorem fixNonces_within (blocks : Nat → Nat → Nat) (n : Nat) (A : RandomNonceGame.Adversary) (a : Nat)
    (h : RandomNonceGame.Within blocks n A a) (vs : List Nonce) : Game.Within blocks n (fixNonces A vs) a := by
  induction A generalizing a vs with
  | stop g => trivial
  | encrypt data msg msg' buffer next ih =>
    cases vs with
    | nil => exact ih _ _ _ (h.2 _ _) _
    | cons v vs => exact ⟨h.1, fun r => ih _ _ _ (h.2 _ _) _⟩
  | decrypt nonce data ct t buffer next ih =>
    obtain ⟨h1, b, rfl, h2⟩ := h
    exact ⟨h1, b, rfl, fun r => ih _ _ (h2 _) _⟩

variable {K : Type}

/-- With different nonces, none of them used before, the two games are the same. -/
theorem play_fixNonces (S : Scheme K) (right : Bool) (k : K) (A : RandomNonceGame.Adversary) (vs : List Nonce) (log : Log)
    (hd : vs.Nodup) (hn : ∀ v ∈ vs, v.1 ∉ log.map Prod.fst) :
    RandomNonceGame.play S right k A vs log = Game.play S right k (fixNonces A vs) log ∧
    (RandomNonceGame.forges S right k A vs log ↔ Game.forges S right k (fixNonces A vs) log) := by
  induction A generalizing vs log with
  | stop g => exact ⟨rfl, Iff.rfl⟩
  | encrypt data msg msg' buffer next ih =>
    cases vs with
    | nil =>
      unfold RandomNonceGame.play RandomNonceGame.forges fixNonces
      exact ih _ _ _ _ hd hn
    | cons v vs =>
      obtain ⟨hd1, hd2⟩ := List.nodup_cons.mp hd
      have hn2 : ∀ w ∈ vs, w.1 ∉ log.map Prod.fst := fun w hw => hn w (List.mem_cons_of_mem _ hw)
      have hn1 := hn v List.mem_cons_self
      unfold RandomNonceGame.play RandomNonceGame.forges fixNonces Game.play Game.forges
      by_cases hl : msg.length ≠ msg'.length
      · simp only [if_pos hl, if_pos (Or.inr hl : v.1 ∈ log.map Prod.fst ∨ msg.length ≠ msg'.length)]
        exact ih _ _ _ _ hd2 hn2
      · simp only [if_neg hl, if_neg (not_or.mpr ⟨hn1, hl⟩ : ¬ (v.1 ∈ log.map Prod.fst ∨ msg.length ≠ msg'.length))]
        cases S.enc k (if right = true then msg' else msg) v.1 data buffer with
        | none => exact ih _ _ _ _ hd2 hn2
        | some p =>
          obtain ⟨ct, t⟩ := p
          refine ih _ _ _ _ hd2 fun w hw hm => ?_
          rw [List.map_cons, List.mem_cons] at hm
          rcases hm with hm | hm
          · exact hd1 (by rw [← Subtype.ext hm]; exact hw)
          · exact hn2 w hw hm
  | decrypt nonce data ct t buffer next ih =>
    unfold RandomNonceGame.play RandomNonceGame.forges fixNonces Game.play Game.forges
    by_cases h : (nonce, data, ct, t) ∈ log
    · simp only [if_pos h]; exact ih _ _ _ hd hn
    · simp only [if_neg h]
      obtain ⟨h1, h2⟩ := ih (S.dec k ct nonce data t buffer) vs log hd hn
      exact ⟨h1, or_congr Iff.rfl h2⟩

/-! ## The chance that a nonce comes up twice -/

theorem card_nonce : Nat.card Nonce = 2 ^ 96 := by
  have h : Nat.card (BitVec 96) = 2 ^ 96 := by
    rw [Nat.card_congr (⟨BitVec.toFin, BitVec.ofFin, fun _ => rfl, fun _ => rfl⟩ : BitVec 96 ≃ Fin (2 ^ 96)), Nat.card_eq_fintype_card,
      Fintype.card_fin]
  rw [← h]
  refine (Nat.card_congr (Equiv.ofBijective (fun x : BitVec 96 => (⟨toLE 12 x.toNat, toLE_length _ _⟩ : Nonce)) ⟨?_, ?_⟩)).symm
  · intro a b e
    have e := congrArg leNat (congrArg Subtype.val e)
    simp only [leNat_toLE] at e
    apply BitVec.eq_of_toNat_eq
    have ha := a.isLt
    have hb := b.isLt
    omega
  · rintro ⟨n, hn⟩
    refine ⟨BitVec.ofNat 96 (leNat n), Subtype.ext ?_⟩
    have hlt := leNat_lt n
    rw [hn] at hlt
    show toLE 12 (BitVec.ofNat 96 (leNat n)).toNat = n
    rw [BitVec.toNat_ofNat, Nat.mod_eq_of_lt (by exact hlt), ← hn, toLE_leNat]

theorem prob_point {α : Type} [Finite α] (x : α) : prob (fun a : α => a = x) = 1 / (Nat.card α : ℚ) := by
  unfold prob
  have : {a : α | a = x}.ncard = 1 := Set.ncard_singleton x
  rw [this, Nat.cast_one]

theorem prob_repeat (q : Nat) : prob (fun v : Fin q → Nonce => ¬ (List.ofFn v).Nodup) ≤ q * (q - 1) / 2 ^ 97 := by
  induction q with
  | zero => simp [prob]
  | succ q ih =>
    have : Fintype (Fin q → Nonce) := Fintype.ofFinite _
    have hne : Nonempty Nonce := ⟨⟨zeros 12, by simp⟩⟩
    have e : prob (fun v : Fin (q + 1) → Nonce => ¬ (List.ofFn v).Nodup) =
        prob (fun x : Nonce × (Fin q → Nonce) => x.1 ∈ List.ofFn x.2 ∨ ¬ (List.ofFn x.2).Nodup) := by
      rw [← Game.prob_equiv (Fin.consEquiv fun _ : Fin (q + 1) => Nonce)]
      congr 1
      funext x
      rw [show (List.ofFn ((Fin.consEquiv fun _ : Fin (q + 1) => Nonce) x)) = x.1 :: List.ofFn x.2 by
        rw [List.ofFn_succ]; rfl, List.nodup_cons, eq_iff_iff]
      tauto
    rw [e]
    have h1 : prob (fun x : Nonce × (Fin q → Nonce) => x.1 ∈ List.ofFn x.2) ≤ q / 2 ^ 96 := by
      refine Game.prob_prod_le _ _ fun v => ?_
      have := Game.prob_mem_list (fun a : Nonce => a) (1 / 2 ^ 96) (fun t => by rw [prob_point, card_nonce]; norm_num) (List.ofFn v)
      rw [List.length_ofFn, mul_one_div] at this
      exact this
    have h2 : prob (fun x : Nonce × (Fin q → Nonce) => ¬ (List.ofFn x.2).Nodup) ≤ q * (q - 1) / 2 ^ 97 := by
      rw [Game.prob_snd (fun v : Fin q → Nonce => ¬ (List.ofFn v).Nodup)]; exact ih
    refine (Game.prob_or _ _).trans ((add_le_add h1 h2).trans ?_)
    push_cast
    rw [show (2 : ℚ) ^ 97 = 2 * 2 ^ 96 by norm_num]
    have : (q : ℚ) / 2 ^ 96 + q * (q - 1) / (2 * 2 ^ 96) = (q + 1) * (q + 1 - 1) / (2 * 2 ^ 96) := by
      field_simp
      ring
    exact this.le

/-! ## From chosen nonces to random ones -/

theorem prob_le_one {α : Type} [Finite α] (P : α → Prop) : prob P ≤ 1 := by
  unfold prob
  apply div_le_one_of_le₀ _ (by positivity)
  exact_mod_cast Set.ncard_le_card _

theorem prob_nonneg {α : Type} (P : α → Prop) : 0 ≤ prob P := by unfold prob; positivity

theorem avg_bound {β : Type} [Fintype β] [Nonempty β] (f : β → ℚ) (B : β → Prop) (e : ℚ) (he : 0 ≤ e)
    (h1 : ∀ b, ¬ B b → f b ≤ e) (h2 : ∀ b, f b ≤ 1) : (∑ b, f b) / Fintype.card β ≤ e + prob B := by
  classical
  have hc : (0 : ℚ) < Fintype.card β := by exact_mod_cast Fintype.card_pos
  have hB : prob B = (∑ b, if B b then (1 : ℚ) else 0) / Fintype.card β := by
    unfold prob
    rw [Nat.card_eq_fintype_card, Set.ncard_eq_toFinset_card', Finset.sum_boole]
    congr 3
    ext b; simp
  rw [hB, ← mul_div_cancel_right₀ e hc.ne', ← add_div, div_le_div_iff_of_pos_right hc]
  have : e * Fintype.card β = ∑ _b : β, e := by rw [Finset.sum_const, Finset.card_univ, nsmul_eq_mul, mul_comm]
  rw [this, ← Finset.sum_add_distrib]
  refine Finset.sum_le_sum fun b _ => ?_
  by_cases hb : B b
  · rw [if_pos hb]; linarith [h2 b]
  · rw [if_neg hb]; linarith [h1 b hb]

/-- Confidentiality with random nonces, for any cipher: if no adversary within the bounds tells two messages apart with more than
advantage `e` when it chooses different nonces itself, then with `q` nonces drawn at random the advantage is at most
`e + q (q - 1) / 2^97`. -/
theorem C119_confidentiality [Finite K] [Nonempty K] (S : Scheme K) (blocks : Nat → Nat → Nat) (n a q : Nat) (e : ℚ)
    (h : ∀ A, Game.Within blocks n A a →
      |prob (fun k => Game.play S false k A [] = true) - prob (fun k => Game.play S true k A [] = true)| ≤ e)
    (A : RandomNonceGame.Adversary) (hA : RandomNonceGame.Within blocks n A a) :
    |guessProb S q false A - guessProb S q true A| ≤ e + q * (q - 1) / 2 ^ 97 := by
  have : Fintype (Fin q → Nonce) := Fintype.ofFinite _
  have hne : Nonempty Nonce := ⟨⟨zeros 12, by simp⟩⟩
  have he : 0 ≤ e := (abs_nonneg _).trans (h (.stop true) trivial)
  have hc : (0 : ℚ) < Fintype.card (Fin q → Nonce) := by exact_mod_cast Fintype.card_pos
  unfold guessProb
  rw [Game.prob_prod, Game.prob_prod, ← sub_div, ← Finset.sum_sub_distrib, abs_div, abs_of_pos hc]
  refine (div_le_div_of_nonneg_right (Finset.abs_sum_le_sum_abs _ _) hc.le).trans ?_
  refine (avg_bound _ (fun v => ¬ (List.ofFn v).Nodup) e he ?_ ?_).trans (by linarith [prob_repeat q])
  · intro v hv
    rw [not_not] at hv
    have hp : ∀ r k, RandomNonceGame.play S r k A (List.ofFn v) [] = Game.play S r k (fixNonces A (List.ofFn v)) [] :=
      fun r k => (play_fixNonces S r k A _ [] hv (by simp)).1
    simp only [hp]
    exact h _ (fixNonces_within blocks n A a hA _)
  · intro v
    rw [abs_le]
    constructor <;> linarith [prob_le_one (fun k => RandomNonceGame.play S false k A (List.ofFn v) [] = true),
      prob_nonneg (fun k => RandomNonceGame.play S false k A (List.ofFn v) [] = true),
      prob_le_one (fun k => RandomNonceGame.play S true k A (List.ofFn v) [] = true),
      prob_nonneg (fun k => RandomNonceGame.play S true k A (List.ofFn v) [] = true)]

/-- Forgery with random nonces, for any cipher: if no adversary within the bounds forges with more than probability `e` when it
chooses different nonces itself, then with `q` nonces drawn at random the probability is at most `e + q (q - 1) / 2^97`. -/
theorem C119_forgery [Finite K] [Nonempty K] (S : Scheme K) (blocks : Nat → Nat → Nat) (n a q : Nat) (e : ℚ) (right : Bool)
    (h : ∀ A, Game.Within blocks n A a → prob (fun k => Game.forges S right k A []) ≤ e)
    (A : RandomNonceGame.Adversary) (hA : RandomNonceGame.Within blocks n A a) :
    forgeProb S q right A ≤ e + q * (q - 1) / 2 ^ 97 := by
  have : Fintype (Fin q → Nonce) := Fintype.ofFinite _
  have hne : Nonempty Nonce := ⟨⟨zeros 12, by simp⟩⟩
  have he : 0 ≤ e := (prob_nonneg _).trans (h (.stop true) trivial)
  unfold forgeProb
  rw [Game.prob_prod]
  refine (avg_bound _ (fun v => ¬ (List.ofFn v).Nodup) e he ?_ (fun v => prob_le_one _)).trans (by linarith [prob_repeat q])
  intro v hv
  rw [not_not] at hv
  have hp : (fun k => RandomNonceGame.forges S right k A (List.ofFn v) []) =
      fun k => Game.forges S right k (fixNonces A (List.ofFn v)) [] :=
    funext fun k => propext (play_fixNonces S right k A _ [] hv (by simp)).2
  rw [hp]
  exact h _ (fixNonces_within blocks n A a hA _)

/-! ## The two ciphers of the code -/

instance : Nonempty oracle.State := ⟨fun _ => 0⟩
instance : Nonempty BlockSource := ⟨fun _ _ => ⟨zeros 64, by simp⟩⟩
instance : Finite oracle.State := inferInstanceAs (Finite (BitVec 128 → BitVec 128))

/-- AES-GCM's construction over a random block function with random nonces: confidentiality. -/
theorem C119_gcm_confidentiality (m : Mode) (A : RandomNonceGame.Adversary) (a n q : Nat) (hn : n ≤ 2 ^ 32 - 3)
    (hA : RandomNonceGame.Within authCount n A a) :
    |guessProb (gcmScheme oracle m) q false A - guessProb (gcmScheme oracle m) q true A| ≤
      2 * (a * n / 2 ^ 128) + q * (q - 1) / 2 ^ 97 :=
  C119_confidentiality (gcmScheme oracle m) authCount n a q _ (fun A hA => C89_gcm_adaptive_confidentiality m A a n hn hA) A hA

/-- AES-GCM's construction over a random block function with random nonces: forgery. -/
theorem C119_gcm_forgery (m : Mode) (A : RandomNonceGame.Adversary) (a n q : Nat) (hn : n ≤ 2 ^ 32 - 3)
    (hA : RandomNonceGame.Within authCount n A a) (right : Bool) :
    forgeProb (gcmScheme oracle m) q right A ≤ a * n / 2 ^ 128 + q * (q - 1) / 2 ^ 97 :=
  C119_forgery (gcmScheme oracle m) authCount n a q _ right (fun A hA => C89_gcm_adaptive_forgery m A a n hn hA right) A hA

/-- ChaCha20-Poly1305 over a random block function with random nonces: confidentiality. -/
theorem C119_ccp_confidentiality (m : Mode) (A : RandomNonceGame.Adversary) (a n q : Nat) (hn : n ≤ 2 ^ 34 - 16)
    (hA : RandomNonceGame.Within authCount n A a) :
    |guessProb (ccpScheme m) q false A - guessProb (ccpScheme m) q true A| ≤
      2 * (a * (1480 * n) / 2 ^ 106) + q * (q - 1) / 2 ^ 97 :=
  C119_confidentiality (ccpScheme m) authCount n a q _ (fun A hA => C90_ccp_adaptive_confidentiality m A a n hn hA) A hA

/-- ChaCha20-Poly1305 over a random block function with random nonces: forgery. -/
theorem C119_ccp_forgery (m : Mode) (A : RandomNonceGame.Adversary) (a n q : Nat) (hn : n ≤ 2 ^ 34 - 16)
    (hA : RandomNonceGame.Within authCount n A a) (right : Bool) :
    forgeProb (ccpScheme m) q right A ≤ a * (1480 * n) / 2 ^ 106 + q * (q - 1) / 2 ^ 97 :=
  C119_forgery (ccpScheme m) authCount n a q _ right (fun A hA => C90_ccp_adaptive_forgery m A a n hn hA right) A hA

/-! ## The hypotheses can be met -/

/-- An adversary that encrypts twice, tries to move the second tag to the first ciphertext, and guesses by the outcome. -/
def exampleRandomNonce : RandomNonceGame.Adversary :=
  .encrypt [] [1] [2] [0] fun v r => .encrypt [] [3] [4] [0] fun _ r' =>
    .decrypt v [] (((r.map Prod.fst).getD []).take 1) ((r'.map Prod.snd).getD []) [0] fun o => .stop (o.isSome && (v == zeros 12))

example : RandomNonceGame.Within authCount 2 exampleRandomNonce 1 := by
  refine ⟨by decide, fun v r => ⟨by decide, fun v' r' => ⟨?_, 0, rfl, fun o => trivial⟩⟩⟩
  unfold authCount
  have : ((r.map Prod.fst).getD [] |>.take 1).length ≤ 1 := by rw [List.length_take]; omega
  simp only [List.length_nil]
  omega

end CryptoPure.Props
