import Verif.Props.X25519Peers
import Verif.Props.Ed25519Oracle
import Verif.Proofs.HmacPrf
import Mathlib.Algebra.BigOperators.Intervals

/-! # C129: fresh keys

What a random secret key contributes: whatever public key the other side presents (one of small order excepted), no value of the shared
secret is likely; and public keys do not repeat. -/

namespace CryptoPure.Props.FreshKeys
open Spec Spec.X25519 Game CryptoPure.Ed
open Spec.Ed25519 (L B encode smul)
open Props.Ed25519 (genPkH)

/-- A secret key: 32 bytes. -/
abbrev SecretKey := {sk : Bytes // sk.length = 32}

instance : Nonempty SecretKey := ⟨⟨zeros 32, by simp⟩⟩

/-! ## Counting -/

theorem ncard_scalar_le (n d : Nat) (hn : 32 ≤ n) :
    {sk : {d : Bytes // d.length = n} | leNat (sk.1.take 32) % 2 ^ 254 / 8 * 8 + 2 ^ 254 = d}.ncard ≤ 32 * 256 ^ (n - 32) := by
  have hinj := Set.ncard_le_ncard_of_injOn (s := {sk : {d : Bytes // d.length = n} | leNat (sk.1.take 32) % 2 ^ 254 / 8 * 8 + 2 ^ 254 = d})
    (t := (Set.univ : Set ((Fin 8 × Fin 4) × {d : Bytes // d.length = n - 32})))
    (fun sk => ((⟨leNat (sk.1.take 32) % 8, Nat.mod_lt _ (by decide)⟩, ⟨leNat (sk.1.take 32) / 2 ^ 254, by
      have := leNat_lt (sk.1.take 32)
      have hl := sk.2
      rw [List.length_take, hl, Nat.min_eq_left hn] at this
      have e : 256 ^ 32 = 4 * 2 ^ 254 := by norm_num
      omega⟩), ⟨sk.1.drop 32, by rw [List.length_drop, sk.2]⟩)) (fun _ _ => Set.mem_univ _) ?_ (Set.toFinite _)
  · refine hinj.trans (le_of_eq ?_)
    rw [Set.ncard_univ, Nat.card_prod, Nat.card_prod, Props.card_digest]
    simp
  · rintro ⟨a, ha⟩ h1 ⟨b, hb⟩ h2 e
    simp only [Set.mem_ofPred_eq] at h1 h2
    simp only [Prod.mk.injEq, Fin.mk.injEq, Subtype.mk.injEq] at e
    obtain ⟨⟨e1, e2⟩, e3⟩ := e
    have e4 : leNat (a.take 32) = leNat (b.take 32) := by omega
    have l1 : (a.take 32).length = 32 := by rw [List.length_take, ha]; omega
    have l2 : (b.take 32).length = 32 := by rw [List.length_take, hb]; omega
    have e5 : a.take 32 = b.take 32 := by rw [← toLE_leNat (a.take 32), ← toLE_leNat (b.take 32), l1, l2, e4]
    exact Subtype.ext (show a = b by
      calc a = a.take 32 ++ a.drop 32 := (List.take_append_drop 32 a).symm
        _ = b.take 32 ++ b.drop 32 := by rw [e5, e3]
        _ = b := List.take_append_drop 32 b)

theorem prob_scalar_le (n d : Nat) (hn : 32 ≤ n) :
    prob (fun sk : {d : Bytes // d.length = n} => leNat (sk.1.take 32) % 2 ^ 254 / 8 * 8 + 2 ^ 254 = d) ≤ 1 / 2 ^ 251 := by
  unfold prob
  rw [Props.card_digest, div_le_div_iff₀ (by positivity) (by positivity)]
  have h := ncard_scalar_le n d hn
  have e : 256 ^ n = 256 ^ (n - 32) * 256 ^ 32 := by rw [← pow_add]; congr 1; omega
  have h' : {sk : {d : Bytes // d.length = n} | leNat (sk.1.take 32) % 2 ^ 254 / 8 * 8 + 2 ^ 254 = d}.ncard * 2 ^ 251 ≤ 1 * 256 ^ n := by
    refine (Nat.mul_le_mul_right _ h).trans (le_of_eq ?_)
    rw [e, show (256 : Nat) ^ 32 = 32 * 2 ^ 251 by norm_num]
    ring
  exact_mod_cast h'

theorem prob_decode_le (d : Nat) : prob (fun sk : SecretKey => decodeScalar sk.1 = d) ≤ 1 / 2 ^ 251 := by
  refine le_trans (prob_mono fun sk h => ?_) (prob_scalar_le 32 d le_rfl)
  rw [List.take_of_length_le (by rw [sk.2])]
  exact h

/-- Among `n` things, each two of which coincide with probability at most `c`, some two coincide with probability at most `n (n - 1) / 2 · c`. -/
theorem prob_pairs {α : Type} [Finite α] (n : Nat) (P : Fin n → Fin n → α → Prop) (hs : ∀ i j a, P i j a → P j i a) (c : ℚ)
    (h : ∀ i j, i ≠ j → prob (P i j) ≤ c) : prob (fun a => ∃ i j, i ≠ j ∧ P i j a) ≤ n * (n - 1) / 2 * c := by
  induction n with
  | zero => simp [prob]
  | succ n ih =>
    have h1 := ih (fun i j => P i.succ j.succ) (fun i j a => hs _ _ a) fun i j e => h _ _ (by simpa using e)
    have h2 : prob (fun a => ∃ j : Fin n, P 0 j.succ a) ≤ n * c := by
      have : ∀ k (Q : Fin k → α → Prop), (∀ j, prob (Q j) ≤ c) → prob (fun a => ∃ j, Q j a) ≤ k * c := by
        intro k
        induction k with
        | zero => intro Q _; simp [prob]
        | succ k ihk =>
          intro Q hQ
          refine le_trans (prob_mono (Q := fun a => Q 0 a ∨ ∃ j : Fin k, Q j.succ a) fun a ⟨j, hj⟩ => ?_) ((prob_or _ _).trans ?_)
          · exact Fin.cases (motive := fun i => Q i a → _) (fun h => .inl h) (fun i h => .inr ⟨i, h⟩) j hj
          · have := ihk (fun j => Q j.succ) fun j => hQ _
            have := hQ 0
            push_cast
            linarith
      exact this n _ fun j => h _ _ (Fin.succ_ne_zero j).symm
    refine le_trans (prob_mono (Q := fun a => (∃ j : Fin n, P 0 j.succ a) ∨ ∃ i j : Fin n, i ≠ j ∧ P i.succ j.succ a) ?_) ((prob_or _ _).trans ?_)
    · rintro a ⟨i, j, e, hp⟩
      induction i using Fin.cases with
      | zero =>
        induction j using Fin.cases with
        | zero => exact absurd rfl e
        | succ j => exact .inl ⟨j, hp⟩
      | succ i =>
        induction j using Fin.cases with
        | zero => exact .inl ⟨i, hs _ _ _ hp⟩
        | succ j => exact .inr ⟨i, j, by simpa using e, hp⟩
    · push_cast
      linarith

/-- Independent draws. -/
theorem prob_draws {α γ : Type} [Finite α] [Nonempty α] (n : Nat) (g : α → γ) (c : ℚ) (h : ∀ t, prob (fun a => g a = t) ≤ c) (i j : Fin n) (e : i ≠ j) :
    prob (fun v : Fin n → α => g (v i) = g (v j)) ≤ c := by
  rw [Proofs.HmacPrf.prob_two e (fun x : α × α => g x.1 = g x.2)]
  exact prob_prod_le (fun x : α × α => g x.1 = g x.2) c fun b => h (g b)

theorem prob_some_repeat {α γ : Type} [Finite α] [Nonempty α] (n : Nat) (g : α → γ) (c : ℚ) (h : ∀ t, prob (fun a => g a = t) ≤ c) :
    prob (fun v : Fin n → α => ∃ i j, i ≠ j ∧ g (v i) = g (v j)) ≤ n * (n - 1) / 2 * c := by
  have h1 : ∀ i j : Fin n, i ≠ j → prob (fun v : Fin n → α => g (v i) = g (v j)) ≤ c := fun i j e => prob_draws n g c h i j e
  exact prob_pairs (α := Fin n → α) n (fun i j v => g (v i) = g (v j)) (fun _ _ _ h => Eq.symm h) c h1

/-! ## X25519 -/

theorem prob_either {d N : Nat} : prob (fun sk : SecretKey => decodeScalar sk.1 = d ∨ decodeScalar sk.1 = N) ≤ 1 / 2 ^ 250 := by
  refine (prob_or _ _).trans ((add_le_add (prob_decode_le d) (prob_decode_le N)).trans (le_of_eq ?_))
  rw [show (2 : ℚ) ^ 251 = 2 * 2 ^ 250 by norm_num]
  field_simp
  norm_num

/-- **The other side cannot determine the shared secret.** Whatever public key it presents (chosen without seeing the public key that
belongs to the random secret key), each nonzero shared secret has probability at most `2^-250`. -/
theorem C129_secret_unpredictable (m : Mode) (pk v : Bytes) (h1 : pk.length = 32) (hv : v ≠ zeros 32) :
    prob (fun sk : SecretKey => Model.X25519.dh m pk sk.1 = some v) ≤ 1 / 2 ^ 250 := by
  by_cases h : ∃ sk : SecretKey, Model.X25519.dh m pk sk.1 = some v
  · obtain ⟨a, ha⟩ := h
    have hz : ∀ b : SecretKey, Model.X25519.dh m pk b.1 = some v → Model.X25519.dh m pk b.1 ≠ some (zeros 32) := fun b hb e => by
      rw [hb] at e
      exact hv (Option.some_inj.mp e)
    by_cases hc : ∃ v : F, v ^ 2 = decodeU pk ^ 3 + 486662 * decodeU pk ^ 2 + decodeU pk
    · refine le_trans (prob_mono fun b hb => ?_) (prob_either (d := decodeScalar a.1) (N := 8 * L - decodeScalar a.1))
      rcases (X25519.C73_same_secret_iff m pk b.1 a.1 h1 b.2 a.2).mp (hb.trans ha.symm) with e | e | ⟨-, e⟩ | ⟨e, -⟩
      · exact absurd e (hz b hb)
      · exact .inl e
      · exact .inr (by omega)
      · exact absurd hc e
    · refine le_trans (prob_mono fun b hb => ?_) (prob_either (d := decodeScalar a.1) (N := 8 * MontOrder.L' - decodeScalar a.1))
      rcases (X25519.C73_same_secret_iff m pk b.1 a.1 h1 b.2 a.2).mp (hb.trans ha.symm) with e | e | ⟨e, -⟩ | ⟨-, e⟩
      · exact absurd e (hz b hb)
      · exact .inl e
      · exact absurd e hc
      · exact .inr (by omega)
  · refine le_trans (prob_mono (Q := fun _ => False) fun b hb => h ⟨b, hb⟩) ?_
    simp [prob]

/-- The public key is not predictable either. -/
theorem C129_public_key_unpredictable (m : Mode) (v : Bytes) : prob (fun sk : SecretKey => Model.X25519.genPk m sk.1 = some v) ≤ 1 / 2 ^ 250 := by
  by_cases h : ∃ sk : SecretKey, Model.X25519.genPk m sk.1 = some v
  · obtain ⟨a, ha⟩ := h
    refine le_trans (prob_mono fun b hb => ?_) (prob_either (d := decodeScalar a.1) (N := 8 * L - decodeScalar a.1))
    rcases (X25519.C55_gen_pk_collisions m b.1 a.1 b.2 a.2).mp (hb.trans ha.symm) with e | e
    · exact .inl e
    · exact .inr (by omega)
  · refine le_trans (prob_mono (Q := fun _ => False) fun b hb => h ⟨b, hb⟩) ?_
    simp [prob]

/-- These probabilities cannot be much smaller: the clamped bits of the secret key make the secret that one key leads to at least
`2^-251` likely. -/
theorem C129_lower_bound (m : Mode) (pk : Bytes) (h1 : pk.length = 32) (sk0 : SecretKey) :
    1 / 2 ^ 251 ≤ prob (fun sk : SecretKey => Model.X25519.dh m pk sk.1 = Model.X25519.dh m pk sk0.1) := by
  refine le_trans ?_ (prob_mono fun sk h => (X25519.C73_same_secret_iff m pk sk.1 sk0.1 h1 sk.2 sk0.2).mpr (.inr (.inl h)))
  unfold prob
  rw [Props.card_digest, div_le_div_iff₀ (by positivity) (by positivity)]
  have hinj := Set.ncard_le_ncard_of_injOn (s := (Set.univ : Set (Fin 8 × Fin 4)))
    (t := {sk : SecretKey | decodeScalar sk.1 = decodeScalar sk0.1})
    (fun x => ⟨toLE 32 (x.1.1 + (leNat sk0.1 % 2 ^ 254 / 8 * 8) + 2 ^ 254 * x.2.1), toLE_length _ _⟩) ?_ ?_ (Set.toFinite _)
  · rw [Set.ncard_univ] at hinj
    have h32 : 32 ≤ {sk : SecretKey | decodeScalar sk.1 = decodeScalar sk0.1}.ncard := by simpa using hinj
    have h' : 1 * 256 ^ 32 ≤ {sk : SecretKey | decodeScalar sk.1 = decodeScalar sk0.1}.ncard * 2 ^ 251 := by
      refine le_trans (le_of_eq ?_) (Nat.mul_le_mul_right _ h32)
      norm_num
    exact_mod_cast h'
  · rintro ⟨⟨i, hi⟩, ⟨j, hj⟩⟩ -
    simp only [Set.mem_ofPred_eq, decodeScalar, leNat_toLE]
    have e : 256 ^ 32 = 4 * 2 ^ 254 := by norm_num
    omega
  · rintro ⟨⟨i, hi⟩, ⟨j, hj⟩⟩ - ⟨⟨i', hi'⟩, ⟨j', hj'⟩⟩ - e'
    have e' := congrArg leNat (congrArg Subtype.val e')
    simp only [leNat_toLE] at e'
    have e : 256 ^ 32 = 4 * 2 ^ 254 := by norm_num
    simp only [Prod.mk.injEq, Fin.mk.injEq]
    omega

theorem birthday_sum (n : Nat) : (n : ℚ) * (n - 1) / 2 * (1 / 2 ^ 250) = n * (n - 1) / 2 ^ 251 := by
  rw [show (2 : ℚ) ^ 251 = 2 * 2 ^ 250 by norm_num]
  field_simp

/-- **Public keys do not repeat.** -/
theorem C129_public_keys_differ (m : Mode) (n : Nat) :
    prob (fun sks : Fin n → SecretKey => ∃ i j, i ≠ j ∧ Model.X25519.genPk m (sks i).1 = Model.X25519.genPk m (sks j).1) ≤ n * (n - 1) / 2 ^ 251 := by
  rw [← birthday_sum]
  refine prob_some_repeat n (fun sk : SecretKey => Model.X25519.genPk m sk.1) _ fun t => ?_
  cases t with
  | none =>
    refine le_trans (prob_mono (Q := fun _ => False) fun b hb => ?_) (by simp [prob])
    obtain ⟨pk, s, h, -⟩ := X25519.C55_honest_secret_nonzero m b.1 b.1 b.2 b.2
    rw [hb] at h
    cases h
  | some v => exact C129_public_key_unpredictable m v

/-- **Fresh keys lead to fresh secrets**, with one and the same peer, unless its public key has small order. -/
theorem C129_secrets_differ (m : Mode) (pk : Bytes) (h1 : pk.length = 32) (hs : ∃ sk : SecretKey, Model.X25519.dh m pk sk.1 ≠ some (zeros 32)) (n : Nat) :
    prob (fun sks : Fin n → SecretKey => ∃ i j, i ≠ j ∧ Model.X25519.dh m pk (sks i).1 = Model.X25519.dh m pk (sks j).1) ≤ n * (n - 1) / 2 ^ 251 := by
  rw [← birthday_sum]
  refine prob_some_repeat n (fun sk : SecretKey => Model.X25519.dh m pk sk.1) _ fun t => ?_
  cases t with
  | none =>
    refine le_trans (prob_mono (Q := fun _ => False) fun b hb => ?_) (by simp [prob])
    exact ((X25519.C35_dh_panics m pk b.1).1.mp hb).elim (fun h => h h1) fun h => h b.2
  | some v =>
    by_cases hv : v = zeros 32
    · subst hv
      refine le_trans (prob_mono (Q := fun _ => False) fun b hb => ?_) (by simp [prob])
      obtain ⟨sk, hsk⟩ := hs
      exact hsk (X25519.C54_zero_independent_of_key m pk b.1 sk.1 sk.2 hb)
    · exact C129_secret_unpredictable m pk v h1 hv

/-! ## Ed25519 -/

theorem genPkWith_scalar (m : Mode) {a b : Bytes} (ha : a.length = 64) (hb : b.length = 64)
    (h : Model.EdWith.genPkWith m a = Model.EdWith.genPkWith m b) : scalarOf a = scalarOf b := by
  rw [genPkWith_spec m ha, genPkWith_spec m hb, Option.some_inj] at h
  have h1 := encode_inj (decodes_smul (scalarOf a)).1 (decodes_smul (scalarOf b)).1 h
  rw [← coe_smulG, ← coe_smulG] at h1
  replace h1 := smulG_eq_iff.mp (Subtype.ext h1)
  have hL : L = 2 ^ 252 + 27742317777372353535851937790883648493 := rfl
  obtain ⟨s, hs, s1, s2⟩ : ∃ s, scalarOf a = 8 * s ∧ 2 ^ 251 ≤ s ∧ s < 2 ^ 252 :=
    ⟨leNat (a.take 32) % 2 ^ 254 / 8 + 2 ^ 251, by unfold scalarOf; omega, by omega, by omega⟩
  obtain ⟨t, ht, t1, t2⟩ : ∃ t, scalarOf b = 8 * t ∧ 2 ^ 251 ≤ t ∧ t < 2 ^ 252 :=
    ⟨leNat (b.take 32) % 2 ^ 254 / 8 + 2 ^ 251, by unfold scalarOf; omega, by omega, by omega⟩
  rw [hs, ht] at h1 ⊢
  have h2 : 8 * s ≡ 8 * t [MOD L] := h1
  have h3 : Nat.gcd L 8 = 1 := by
    rw [Nat.gcd_comm, show 8 = 2 ^ 3 by norm_num]
    exact Nat.Coprime.pow_left _ ((Nat.coprime_primes Nat.prime_two Ed.prime_L).mpr (by norm_num [L]))
  have h4 := Nat.ModEq.cancel_left_of_coprime h3 h2
  rw [Nat.ModEq.eq_of_lt_of_lt h4 (by omega) (by omega)]

/-- A random digest of the secret key leads to no public key with more than this probability. -/
theorem prob_genPkWith_le (m : Mode) (t : Option Bytes) :
    prob (fun d : {d : Bytes // d.length = 64} => Model.EdWith.genPkWith m d.1 = t) ≤ 1 / 2 ^ 251 := by
  by_cases h : ∃ d : {d : Bytes // d.length = 64}, Model.EdWith.genPkWith m d.1 = t
  · obtain ⟨a, ha⟩ := h
    exact le_trans (prob_mono fun b hb => genPkWith_scalar m b.2 a.2 (hb.trans ha.symm)) (prob_scalar_le 64 (scalarOf a.1) (by decide))
  · refine le_trans (prob_mono (Q := fun _ => False) fun b hb => h ⟨b, hb⟩) ?_
    simp [prob]

theorem prob_two_values {D R γ : Type} [Finite D] [Finite R] [Nonempty R] {a b : D} (e : a ≠ b) (g : R → γ) (c : ℚ) (h : ∀ t, prob (fun r => g r = t) ≤ c) :
    prob (fun F : D → R => g (F a) = g (F b)) ≤ c := by
  rw [Proofs.HmacPrf.prob_two e (fun x : R × R => g x.1 = g x.2)]
  exact prob_prod_le (fun x : R × R => g x.1 = g x.2) c fun b => h (g b)

/-- **Ed25519 public keys do not repeat**, when SHA-512 is replaced by a uniformly random function. -/
theorem C129_ed25519_keys_differ (m : Mode) (N : Nat) (hN : 32 ≤ N) (n : Nat) :
    prob (fun X : (Fin n → SecretKey) × Props.Keyed N 64 => ∃ i j, i ≠ j ∧ genPkH m X.2.ask (X.1 i).1 = genPkH m X.2.ask (X.1 j).1) ≤
      n * (n - 1) / 2 * (1 / 2 ^ 256 + 1 / 2 ^ 251) := by
  have hne : Nonempty {d : Bytes // d.length = 64} := ⟨⟨zeros 64, by simp⟩⟩
  have h1 : ∀ i j : Fin n, i ≠ j → prob (fun X : (Fin n → SecretKey) × Props.Keyed N 64 =>
      genPkH m X.2.ask (X.1 i).1 = genPkH m X.2.ask (X.1 j).1) ≤ 1 / 2 ^ 256 + 1 / 2 ^ 251 := by
    intro i j e
    refine le_trans (prob_mono (Q := fun X => X.1 i = X.1 j ∨
      (X.1 i ≠ X.1 j ∧ genPkH m X.2.ask (X.1 i).1 = genPkH m X.2.ask (X.1 j).1)) fun X h => ?_) ((prob_or _ _).trans (add_le_add ?_ ?_))
    · by_cases e : X.1 i = X.1 j
      · exact .inl e
      · exact .inr ⟨e, h⟩
    · rw [prob_fst (fun sks : Fin n → SecretKey => sks i = sks j)]
      refine prob_draws n (fun sk : SecretKey => sk) (1 / 2 ^ 256) (fun t => ?_) i j e
      rw [Proofs.HmacPrf.prob_eq, Props.card_digest]
      norm_num
    · rw [← prob_equiv (Equiv.prodComm _ _)]
      refine prob_prod_le (fun X : Props.Keyed N 64 × (Fin n → SecretKey) => X.2 i ≠ X.2 j ∧ genPkH m X.1.ask (X.2 i).1 = genPkH m X.1.ask (X.2 j).1)
        _ fun sks => ?_
      by_cases e' : sks i = sks j
      · refine le_trans (prob_mono (Q := fun _ => False) fun b hb => hb.1 e') ?_
        simp [prob]
      · have hl : ∀ k, (sks k).1.length ≤ N := fun k => by rw [(sks k).2]; exact hN
        have e2 : (⟨(sks i).1, hl i⟩ : {x : Bytes // x.length ≤ N}) ≠ ⟨(sks j).1, hl j⟩ := fun h => e' (Subtype.ext (Subtype.mk.inj h))
        have ha : ∀ (F : Props.Keyed N 64) k, F.ask (sks k).1 = (F ⟨(sks k).1, hl k⟩).1 := fun F k => by unfold Props.Keyed.ask; rw [dif_pos (hl k)]
        refine le_trans (prob_mono (Q := fun F : Props.Keyed N 64 => Model.EdWith.genPkWith m (F ⟨(sks i).1, hl i⟩).1 =
          Model.EdWith.genPkWith m (F ⟨(sks j).1, hl j⟩).1) fun F hF => ?_) ?_
        · have := hF.2
          unfold genPkH at this
          rwa [ha, ha] at this
        · exact prob_two_values e2 (fun d : {d : Bytes // d.length = 64} => Model.EdWith.genPkWith m d.1) _ (prob_genPkWith_le m)
  exact prob_pairs (α := (Fin n → SecretKey) × Props.Keyed N 64) n (fun i j X => genPkH m X.2.ask (X.1 i).1 = genPkH m X.2.ask (X.1 j).1)
    (fun _ _ _ h => Eq.symm h) _ h1

/-! ## Concrete cases -/

/-- Small-order keys are the exception: with the public key 0 every secret key leads to the secret 0. -/
example (m : Mode) : prob (fun sk : SecretKey => Model.X25519.dh m (zeros 32) sk.1 = some (zeros 32)) = 1 := by
  have : (fun sk : SecretKey => Model.X25519.dh m (zeros 32) sk.1 = some (zeros 32)) = fun _ => True :=
    funext fun sk => eq_true (X25519.C40_small_order_gives_zero m _ _ (by simp) sk.2 (by decide))
  rw [this]
  unfold prob
  rw [show {_a : SecretKey | True} = Set.univ from rfl, Set.ncard_univ]
  exact div_self (Nat.cast_ne_zero.mpr Nat.card_pos.ne')

/-- Keys made by `gen_pk` meet the hypothesis of `C129_secrets_differ`. -/
example (m : Mode) (a : SecretKey) : ∃ pk, Model.X25519.genPk m a.1 = some pk ∧ ∃ sk : SecretKey, Model.X25519.dh m pk sk.1 ≠ some (zeros 32) := by
  obtain ⟨pk, s, h1, h2, h3⟩ := X25519.C55_honest_secret_nonzero m a.1 a.1 a.2 a.2
  exact ⟨pk, h1, a, by rw [h2]; simpa using h3⟩

/-- Among `2^64` public keys two coincide with probability less than `2^-122`. -/
example (m : Mode) : prob (fun sks : Fin (2 ^ 64) → SecretKey => ∃ i j, i ≠ j ∧ Model.X25519.genPk m (sks i).1 = Model.X25519.genPk m (sks j).1) <
    1 / 2 ^ 122 :=
  lt_of_le_of_lt (C129_public_keys_differ m (2 ^ 64)) (by push_cast; norm_num)

end CryptoPure.Props.FreshKeys
