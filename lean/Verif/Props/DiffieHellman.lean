import Verif.Proofs.DhGame
import Verif.Props.Tunnel

/-! # C137: every X25519 exchange is as hard to break as a random one

C133 and C134 bound attacks on key exchanges by the chance of finding the shared secret of two random public keys. There are no weak
public keys for this problem: whoever solves it for random keys solves it for all keys of `gen_pk`. -/

namespace CryptoPure.Props.DiffieHellman
open Spec.X25519 Prog Game DhGame
open Spec.Ed25519 (L)
open Props.FreshKeys (SecretKey)
open Props.X25519 (L_not_dvd_scalar base_order ladder_base ladder_twice genPk_eq decode_encode)
open Proofs.HmacSha TunnelGame

/-- The probability that the solver, given the public keys that the code makes of the secret keys `a` and `b`, says what `dh` gives for them. -/
noncomputable def solves (m : Mode) (D : Solver) (a b : Bytes) : ℚ :=
  match exchange m a b with
  | none => 0
  | some ((pa, pb), s) => (D pa pb).pr fun z => z = some s

/-- The same for random secret keys. -/
noncomputable def solvesRandom (m : Mode) (D : Solver) : ℚ := (draw SecretKey).ex fun a => (draw SecretKey).ex fun b => solves m D a.1 b.1

theorem mod_not_dvd (k : Bytes) : ¬ L ∣ decodeScalar k % L := fun h => L_not_dvd_scalar k ((Nat.dvd_mod_iff (dvd_refl L)).mp h)

theorem exchange_eq (m : Mode) {a b : Bytes} (ha : a.length = 32) (hb : b.length = 32) :
    exchange m a b = some ((point (decodeScalar a % L), point (decodeScalar b % L)), point (decodeScalar a % L * (decodeScalar b % L) % L)) := by
  obtain ⟨P, hP, ho⟩ := base_order
  have hp : ∀ k : Bytes, point (decodeScalar k % L) = encodeU (ladder (decodeScalar k) 9) := fun k => by
    rw [point_eq hP (mod_lt' _), mod_smul ho, ← ladder_base hP]
  have hs : point (decodeScalar a % L * (decodeScalar b % L) % L) = encodeU (ladder (decodeScalar a) (ladder (decodeScalar b) 9)) := by
    rw [← Nat.mul_mod, point_eq hP (mod_lt' _), mod_smul ho, ladder_twice hP]
  unfold exchange
  rw [genPk_eq m ha, genPk_eq m hb, Option.bind_some, Option.bind_some,
    (Props.X25519.C35_dh_rfc7748 m (encodeU (ladder (decodeScalar b) 9)) a (by unfold encodeU; simp) ha).1, Option.map_some, x25519, decode_encode, hp, hp, hs]

theorem solves_eq (m : Mode) (D : Solver) {a b : Bytes} (ha : a.length = 32) (hb : b.length = 32) :
    solves m D a b = chance D (decodeScalar a % L) (decodeScalar b % L) := by
  unfold solves
  rw [exchange_eq m ha hb]
  rfl

attribute [local irreducible] L

/-- **Worst case.** Whoever finds `a b` times the base point from `a` times and `b` times the base point with probability `p` for random `a`, `b` finds it with
probability at least `p` for all `a`, `b` but multiples of `L`: it multiplies both points by random numbers first, and divides the result. -/
theorem C137_every_point (D : Solver) (a b : Nat) (ha : 0 < a) (ha' : a < L) (hb : 0 < b) (hb' : b < L) : average D ≤ chance (masked D) a b :=
  chance_masked D (ha'.trans L_lt) (hb'.trans L_lt) (Props.X25519.L_not_dvd ha ha') (Props.X25519.L_not_dvd hb hb')

/-- **Clamping hardly helps.** Public keys are made of clamped secret keys. The chance to find the secret of two random public keys of `gen_pk` is at most
`((L - 1) / 2^251)²` times the chance for random multiples of the base point. -/
theorem C137_clamped (m : Mode) (D : Solver) : solvesRandom m D ≤ (((L - 1 : Nat) : ℚ) / 2 ^ 251) ^ 2 * average D := by
  unfold solvesRandom
  have e : ((draw SecretKey).ex fun a => (draw SecretKey).ex fun b => solves m D a.1 b.1) =
      (draw SecretKey).ex fun a => (draw SecretKey).ex fun b => chance D (decodeScalar a.1 % L) (decodeScalar b.1 % L) :=
    congrArg _ (funext fun a => congrArg _ (funext fun b => solves_eq m D a.2 b.2))
  rw [e]
  have h1 : ∀ x, ((draw SecretKey).ex fun b => chance D x (decodeScalar b.1 % L)) ≤ (∑ y : Fin (L - 1), chance D x (y + 1)) / 2 ^ 251 := fun x => by
    rw [draw_ex]
    exact secret_mean (fun y => chance D x y) fun y => chance_nonneg D x y
  refine (ex_mono fun a => h1 _).trans ?_
  rw [draw_ex]
  refine (secret_mean (fun x => (∑ y : Fin (L - 1), chance D x (y + 1)) / 2 ^ 251) fun x =>
    div_nonneg (Finset.sum_nonneg fun y _ => chance_nonneg D _ _) (pow_nonneg zero_le_two _)).trans (le_of_eq ?_)
  unfold average
  rw [← Finset.sum_div]
  have hL : ((L - 1 : Nat) : ℚ) ≠ 0 := by
    have := one_lt_L
    exact_mod_cast (by omega : L - 1 ≠ 0)
  generalize ((L - 1 : Nat) : ℚ) = l at *
  generalize (∑ i : Fin (L - 1), ∑ y : Fin (L - 1), chance D (i + 1) (y + 1)) = t
  have h2 : (2 : ℚ) ^ 251 ≠ 0 := (pow_pos two_pos _).ne'
  generalize (2 : ℚ) ^ 251 = w at *
  field_simp

theorem factor_le : (((L - 1 : Nat) : ℚ) / 2 ^ 251) ^ 2 ≤ 4 + 1 / 2 ^ 123 := by
  have h : (L - 1) ^ 2 * 2 ^ 123 ≤ (4 * 2 ^ 123 + 1) * (2 ^ 251) ^ 2 := by unfold L; decide +kernel
  have h' : ((L - 1 : Nat) : ℚ) ^ 2 * 2 ^ 123 ≤ (4 * 2 ^ 123 + 1) * (2 ^ 251) ^ 2 := by exact_mod_cast h
  generalize ((L - 1 : Nat) : ℚ) = l at *
  have h1 : (0 : ℚ) < 2 ^ 123 := pow_pos two_pos _
  have h2 : (0 : ℚ) < 2 ^ 251 := pow_pos two_pos _
  generalize (2 : ℚ) ^ 123 = x at *
  generalize (2 : ℚ) ^ 251 = w at *
  rw [div_pow, div_le_iff₀ (by positivity), show (4 : ℚ) + 1 / x = (4 * x + 1) / x by field_simp, div_mul_eq_mul_div, le_div_iff₀ h1]
  exact h'

theorem average_nonneg (D : Solver) : 0 ≤ average D :=
  div_nonneg (Finset.sum_nonneg fun _ _ => Finset.sum_nonneg fun _ _ => chance_nonneg D _ _) (sq_nonneg _)

/-- **There are no strong exchanges among weak ones.** Take any program that is given two public keys of `gen_pk` and says what their shared secret is. If it is right
with probability `p` for random secret keys, then for every two secret keys the program that multiplies both public keys by random numbers first is right with
probability at least `p / (4 + 2^-123)`. -/
theorem C137_every_exchange (m : Mode) (D : Solver) (a b : Bytes) (ha : a.length = 32) (hb : b.length = 32) :
    solvesRandom m D ≤ (4 + 1 / 2 ^ 123) * solves m (masked D) a b := by
  refine (C137_clamped m D).trans (mul_le_mul factor_le ?_ (average_nonneg D) ?_)
  · rw [solves_eq m _ ha hb]
    exact chance_masked D (mod_lt' _) (mod_lt' _) (mod_not_dvd a) (mod_not_dvd b)
  · exact add_nonneg (by norm_num) (one_div_nonneg.mpr (pow_nonneg zero_le_two _))

variable {u : Nat} {K : Type}

/-- The program of C133 that looks for the shared secret, with its random choices. -/
noncomputable def finder [Finite K] (v : Variant) (S : Scheme K) (right : Bool) (A : Bytes × Bytes → TunnelGame.Attacker v.width u) (p : Nat) : Solver := fun pa pb =>
  (draw (Fn v.width v.block × (Fin u → K))).bind fun c => (draw (Fin p)).bind fun j => .done (secretFinder v S right A (pa, pb) c.1 c.2 j)

/-- **Attacks on records find the secret of every exchange.** The chance of an attack on a tunnel (C133) to come across the shared secret of random keys is at most
`p (4 + 2^-123)` times the chance of an explicit program to find the shared secret of any two secret keys from their public keys. -/
theorem C137_tunnel [Finite K] (v : Variant) (m : Mode) (S : Scheme K) (right : Bool) (A : Bytes × Bytes → TunnelGame.Attacker v.width u)
    (blocks : Nat → Nat → Nat) (n p t : Nat) (hA : ∀ pks, (A pks).Within v.block blocks n p t) (a b : Bytes) (ha : a.length = 32) (hb : b.length = 32) :
    findsExchanged v m S right A ≤ p * ((4 + 1 / 2 ^ 123) * solves m (masked (finder v S right A p)) a b) := by
  refine (C133_diffie_hellman v m S right A blocks n p t hA).trans (mul_le_mul_of_nonneg_left ?_ (Nat.cast_nonneg p))
  refine le_trans (le_of_eq ?_) (C137_every_exchange m (finder v S right A p) a b ha hb)
  classical
  rw [prob_draw]
  unfold Prog.pr solvesRandom
  rw [draw_prod, draw_prod, draw_prod]
  refine congrArg _ (funext fun x => congrArg _ (funext fun y => ?_))
  unfold solves
  obtain ⟨pa, pb, s, h, -⟩ := C108_exchange m x.1 y.1 x.2 y.2
  rw [h]
  unfold finder Prog.pr
  dsimp only
  rw [ex_bind]
  refine congrArg _ (funext fun c => ?_)
  rw [ex_bind]
  refine congrArg _ (funext fun j => ?_)
  rw [ex_done]
  have hi : (∃ pks s', exchange m x.1 y.1 = some (pks, s') ∧ secretFinder v S right A pks c.1 c.2 j = some s') ↔
      secretFinder v S right A (pa, pb) c.1 c.2 j = some s := by
    constructor
    · rintro ⟨pks, s', e, h'⟩
      rw [h] at e
      cases e
      exact h'
    · exact fun h' => ⟨_, _, h, h'⟩
  by_cases h' : secretFinder v S right A (pa, pb) c.1 c.2 j = some s
  · rw [if_pos h', if_pos (hi.mpr h')]
  · rw [if_neg h', if_neg fun e => h' (hi.mp e)]

/-! ## Concrete cases -/

/-- The program that searches for a secret key that belongs to the first public key. -/
noncomputable def search (m : Mode) : Solver := by
  classical exact fun pa pb => .done (if h : ∃ a : SecretKey, Model.X25519.genPk m a.1 = some pa then Model.X25519.dh m pb h.choose.1 else none)

theorem exchange_parts {m : Mode} {a b pa pb s : Bytes} (h : exchange m a b = some ((pa, pb), s)) :
    Model.X25519.genPk m a = some pa ∧ Model.X25519.genPk m b = some pb ∧ Model.X25519.dh m pb a = some s := by
  unfold exchange at h
  obtain ⟨x, h1, h⟩ := Option.bind_eq_some_iff.mp h
  obtain ⟨y, h2, h⟩ := Option.bind_eq_some_iff.mp h
  obtain ⟨z, h3, h⟩ := Option.map_eq_some_iff.mp h
  cases h
  exact ⟨h1, h2, h3⟩

/-- It always finds the shared secret. -/
theorem search_solves (m : Mode) (a b : Bytes) (ha : a.length = 32) (hb : b.length = 32) : solves m (search m) a b = 1 := by
  classical
  obtain ⟨pa, pb, s, h1, h2, -⟩ := C108_exchange m a b ha hb
  obtain ⟨p1, p2, p3⟩ := exchange_parts h1
  obtain ⟨-, -, q3⟩ := exchange_parts h2
  have hex : ∃ x : SecretKey, Model.X25519.genPk m x.1 = some pa := ⟨⟨a, ha⟩, p1⟩
  unfold solves search
  rw [h1]
  dsimp only
  rw [dif_pos hex]
  have hc := hex.choose_spec
  generalize hex.choose = x at hc
  obtain ⟨pa', pb', s', k1, k2, -⟩ := C108_exchange m x.1 b x.2 hb
  obtain ⟨r1, r2, r3⟩ := exchange_parts k1
  obtain ⟨-, -, t3⟩ := exchange_parts k2
  rw [hc] at r1
  rw [p2] at r2
  cases r1
  cases r2
  rw [q3] at t3
  cases t3
  unfold Prog.pr
  rw [ex_done, if_pos r3]

/-- So with random factors it finds the secret of every exchange with probability at least `1 / (4 + 2^-123)`. -/
example (m : Mode) (a b : Bytes) (ha : a.length = 32) (hb : b.length = 32) : 1 ≤ (4 + 1 / 2 ^ 123) * solves m (masked (search m)) a b := by
  refine le_trans (le_of_eq ?_) (C137_every_exchange m (search m) a b ha hb)
  unfold solvesRandom
  have h1 : ∀ x y : SecretKey, solves m (search m) x.1 y.1 = 1 := fun x y => search_solves m _ _ x.2 y.2
  simp only [h1, draw_ex]
  have hc : (Fintype.card SecretKey : ℚ) ≠ 0 := Nat.cast_ne_zero.mpr Fintype.card_ne_zero
  simp only [Finset.sum_const, Finset.card_univ, nsmul_eq_mul, mul_one]
  rw [div_self hc, mul_one, div_self hc]

/-- A program that always says the same: it is right for few pairs, and so is the one with random factors, for every pair. -/
example (b : Bytes) : average (fun _ _ => .done (some b)) ≤ chance (masked fun _ _ => .done (some b)) 1 2 :=
  C137_every_point _ 1 2 (by norm_num) (by unfold L; decide) (by norm_num) (by unfold L; decide)

/-- An attack on a tunnel. -/
example (m : Mode) (a b : Bytes) (ha : a.length = 32) (hb : b.length = 32) : findsExchanged .sha256 m (aesGcm .aes256 m) false reflectOnTunnel ≤
    (1 : Nat) * ((4 + 1 / 2 ^ 123) * solves m (masked (finder .sha256 (aesGcm .aes256 m) false reflectOnTunnel 1)) a b) :=
  C137_tunnel .sha256 m (aesGcm .aes256 m) false reflectOnTunnel authCount 4 1 1 reflectOnTunnel_within a b ha hb

end CryptoPure.Props.DiffieHellman
