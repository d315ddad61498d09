import Verif.Proofs.LogGame
import Verif.Proofs.Draw
import Verif.Props.Ed25519Strong
import Verif.Props.Ed25519Multi

/-! # C136: forging Ed25519 signatures is as hard as the hardest discrete logarithm

C103, C114 and C128 bound the chance of a forger by the chance of finding the logarithm of a random public key. Public keys have special (clamped)
logarithms, so this is not yet the usual problem: a random multiple of `B`. And for the usual problem all instances are equally hard. -/

namespace CryptoPure.Props.Ed25519
open Spec.Ed25519 Model.EdWith EdGame CryptoPure.Ed Prog Game LogGame

/-- The extractor of C103 and C114: it has a public key and calls the forger. -/
noncomputable def extractor (m : Mode) (f : Bytes → Forger) : Solver := fun A => extract m A (f (encode A))

/-- The extractor of C128: draw a user and secret keys for the others, and take the given point as the public key of that user. -/
noncomputable def extractorMany {u : Nat} (m : Mode) (f : (Fin u → Bytes) → MultiEdGame.Forger u) : Solver := fun A =>
  (draw (Fin u)).bind fun i => (draw (Fin u → Secret)).bind fun sks => extractor m (MultiEdGame.single m i (fun j => (sks j).1) f) A

attribute [local irreducible] digests L digest scalar

/-- **Worst case.** Take any solver and let `p` be its chance to find the logarithm of a random multiple of `B`. Then the solver that first adds a random
multiple of `B` finds the logarithm of every single multiple of `B` with the same probability `p`. -/
theorem C136_every_point (D : Solver) (a : Nat) : chance (shifted D) (smul a B) = average D := chance_shifted D a

/-- **Public keys.** The chance of a solver to find the logarithm of a random public key is at most `L / 2^251` times (that is, not much more than twice) its
chance for a random multiple of `B`. -/
theorem C136_public_keys (D : Solver) : (digest.ex fun az => chance D (keyOf az)) ≤ L / 2 ^ 251 * average D := by
  have h := digest_clamped (fun x => chance D (smul x B)) fun x => chance_nonneg D _
  have e : (digest.ex fun az => chance D (keyOf az)) =
      digest.ex fun az => chance D (smul ((leNat (az.take 32) % 2 ^ 254 / 8 * 8 + 2 ^ 254) % L) B) := by
    congr 1
    funext az
    rw [smul_mod]
    rfl
  rw [e]
  refine h.trans (le_of_eq ?_)
  unfold average
  have hL : (L : ℚ) ≠ 0 := by exact_mod_cast L_pos'.ne'
  generalize (∑ x : Fin L, chance D (smul x B)) = s
  field_simp

theorem L_over : (L : ℚ) / 2 ^ 251 ≤ 2 + 1 / 2 ^ 126 := by
  have h : L * 2 ^ 126 ≤ (2 * 2 ^ 126 + 1) * 2 ^ 251 := by unfold L; decide +kernel
  rw [div_le_iff₀ (pow_pos two_pos _)]
  have h2 : (L : ℚ) * 2 ^ 126 ≤ (2 * 2 ^ 126 + 1) * 2 ^ 251 := by exact_mod_cast h
  have hp : (0 : ℚ) < 2 ^ 126 := pow_pos two_pos _
  calc (L : ℚ) ≤ (2 * 2 ^ 126 + 1) * 2 ^ 251 / 2 ^ 126 := by rwa [le_div_iff₀ hp]
    _ = _ := by rw [mul_div_right_comm, add_div, mul_div_assoc, div_self hp.ne', mul_one]

theorem logGame_chance (m : Mode) (f : Bytes → Forger) :
    ((logGame m f).pr fun r => ∃ z, r.2 = some z ∧ smul z B = r.1) = digest.ex fun az => chance (extractor m f) (keyOf az) := by
  unfold logGame Prog.pr
  rw [ex_bind]
  congr 1
  funext az
  rw [ex_bind]
  rfl

/-- The chance of the extractor in C103 and C114, compared to the usual problem. -/
theorem logGame_le (m : Mode) (f : Bytes → Forger) :
    ((logGame m f).pr fun r => ∃ z, r.2 = some z ∧ smul z B = r.1) ≤ (2 + 1 / 2 ^ 126) * average (extractor m f) := by
  rw [logGame_chance]
  refine (C136_public_keys _).trans (mul_le_mul_of_nonneg_right L_over ?_)
  exact div_nonneg (Finset.sum_nonneg fun x _ => chance_nonneg _ _) (Nat.cast_nonneg _)

/-- **Forging is as hard as the hardest logarithm.** SHA-512 is replaced by a uniformly random function `H` and the secret key is uniformly random. Take any
forger `f` that sees the public key, calls `H` at most `q` times and the signer at most `s` times. Let `ε` be the probability that it ends with a
signature that `verify` accepts and that is not one of those handed out for its message, up to multiples of `L` in the second half. Take any multiple
`A` of `B`, and let `p` be the probability that the extractor, called with `A` plus a random multiple of `B`, gives the logarithm of `A`. Then
`(ε - δ)² ≤ q ((2 + 2^-126) p + 2^-252)` with `δ = ((s + 1) (q + s + 1) + 1) 2^-252`, unless `ε < δ`. -/
theorem C136_forging (m : Mode) (N : Nat) (hN : 32 ≤ N) (f : Bytes → Forger) (q s : Nat)
    (hf : ∀ pk, pk.length = 32 → (f pk).Within N q s) (ε p δ : ℚ) (a : Nat)
    (hε : ε = prob fun X : {sk : Bytes // sk.length = 32} × Keyed N 64 => ∃ pk, genPkH m X.2.ask X.1.1 = some pk ∧
      winsStrong X.2.ask (signH m X.2.ask X.1.1) (fun M sig => verifyWith m X.2.ask M sig pk) (f pk) [])
    (hp : p = chance (shifted (extractor m f)) (smul a B))
    (hδ : δ = ((s + 1) * (q + s + 1) + 1) / 2 ^ 252) (hge : δ ≤ ε) : (ε - δ) ^ 2 ≤ q * ((2 + 1 / 2 ^ 126) * p + 1 / 2 ^ 252) := by
  refine (C114_new_signature_gives_logarithm m N hN f q s hf ε _ δ hε rfl hδ hge).trans ?_
  refine mul_le_mul_of_nonneg_left ?_ (Nat.cast_nonneg q)
  rw [hp, C136_every_point]
  exact add_le_add (logGame_le m f) le_rfl

variable {u : Nat}

theorem averageLog_chance (m : Mode) (f : (Fin u → Bytes) → MultiEdGame.Forger u) :
    averageLog m f = digest.ex fun az => chance (extractorMany m f) (keyOf az) := by
  have hc : ∀ A, chance (extractorMany m f) A = (draw (Fin u)).ex fun i => (draw (Fin u → Secret)).ex fun sks =>
      chance (extractor m (MultiEdGame.single m i (fun j => (sks j).1) f)) A := by
    intro A
    unfold chance extractorMany Prog.pr
    rw [ex_bind]
    simp only [ex_bind]
  have e1 : (digest.ex fun az => chance (extractorMany m f) (keyOf az)) =
      (draw (Fin u)).ex fun i => (draw (Fin u → Secret)).ex fun sks => digest.ex fun az => chance (extractor m (MultiEdGame.single m i (fun j => (sks j).1) f)) (keyOf az) := by
    simp only [hc]
    rw [ex_comm]
    congr 1
    funext i
    rw [ex_comm]
  rw [e1, draw_ex]
  simp only [draw_ex]
  unfold averageLog
  simp only [logGame_chance]
  rw [← Finset.sum_div, div_div, Fintype.card_fin, mul_comm (u : ℚ)]

/-- The chance of the extractor in C128, C134 and C135, compared to the usual problem. -/
theorem C136_average_log (m : Mode) (f : (Fin u → Bytes) → MultiEdGame.Forger u) (a : Nat) :
    averageLog m f ≤ (2 + 1 / 2 ^ 126) * chance (shifted (extractorMany m f)) (smul a B) := by
  rw [averageLog_chance m, C136_every_point]
  refine (C136_public_keys _).trans (mul_le_mul_of_nonneg_right L_over ?_)
  exact div_nonneg (Finset.sum_nonneg fun x _ => chance_nonneg _ _) (Nat.cast_nonneg _)

/-- **Forging under one of `u` keys** is as hard as the hardest logarithm, too. The forger is as in C128 and `A` is any multiple of `B`; `p` is the probability that the
extractor, called with `A` plus a random multiple of `B`, gives the logarithm of `A`. -/
theorem C136_forging_many (m : Mode) (N : Nat) (hN : 64 ≤ N) (hu : 0 < u) (f : (Fin u → Bytes) → MultiEdGame.Forger u) (q s : Nat)
    (hf : ∀ pks, (∀ j, (pks j).length = 32) → (f pks).Within N q s) (ε p δ : ℚ) (Q a : Nat)
    (hε : ε = prob fun X : (Fin u → Secret) × Keyed N 64 => winsAgainst m f X.1 X.2.ask)
    (hp : p = chance (shifted (extractorMany m f)) (smul a B)) (hQ : Q = u + (q + 2 * s))
    (hδ : δ = ((s + 1) * (Q + s + 1) + 1) / 2 ^ 252) (hge : δ ≤ ε / u) :
    (ε / u - δ) ^ 2 ≤ Q * ((2 + 1 / 2 ^ 126) * p + 1 / 2 ^ 252) := by
  refine (C128_many_signers m N hN hu f q s hf ε _ δ Q hε rfl hQ hδ hge).trans ?_
  refine mul_le_mul_of_nonneg_left ?_ (Nat.cast_nonneg Q)
  rw [hp]
  exact add_le_add (C136_average_log m f a) le_rfl

/-! ## Concrete cases -/

/-- A solver that knows only the logarithm of `B`. -/
def knowsB : Solver := fun _ => .done (some 1)

theorem chance_knowsB (x : Fin L) : chance knowsB (smul x B) = if x.val = 1 then 1 else 0 := by
  classical
  have hx : (∃ z, some 1 = some z ∧ smul z B = smul x B) ↔ x.val = 1 := by
    constructor
    · rintro ⟨z, h1, h2⟩
      cases h1
      rw [smul_B_iff, Nat.mod_eq_of_lt x.isLt, Nat.mod_eq_of_lt (show 1 < L by unfold L; decide)] at h2
      exact h2.symm
    · intro h
      exact ⟨1, rfl, by rw [h]⟩
  show (if (∃ z, some 1 = some z ∧ smul z B = smul x B) then (1 : ℚ) else 0) = _
  by_cases h : x.val = 1
  · rw [if_pos h, if_pos (hx.mpr h)]
  · rw [if_neg h, if_neg fun h' => h (hx.mp h')]

/-- It finds one logarithm in `L`; with a random shift, every logarithm with probability `1 / L`. -/
example (a : Nat) : chance (shifted knowsB) (smul a B) = 1 / L := by
  rw [C136_every_point]
  unfold average
  simp only [chance_knowsB]
  have h1 : (1 : Nat) < L := by unfold L; decide
  rw [Finset.sum_eq_single (⟨1, h1⟩ : Fin L) (fun b _ hb => if_neg fun h => hb (Fin.ext h)) (fun h => (h (Finset.mem_univ _)).elim), if_pos rfl]

example : (digest.ex fun az => chance knowsB (keyOf az)) ≤ L / 2 ^ 251 * average knowsB := C136_public_keys knowsB

end CryptoPure.Props.Ed25519
