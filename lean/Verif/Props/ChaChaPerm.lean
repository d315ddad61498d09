import Verif.Proofs.ChaChaPerm
import Verif.Proofs.PermIdeal
import Verif.Props.Reduction
import Verif.Props.HkdfPrf

/-! # C139: ChaCha20-Poly1305 for attackers who can compute the rounds of ChaCha20

C120 says that breaking ChaCha20-Poly1305 means telling the block function of ChaCha20, under a random key, from a random function. Here only the 20
rounds, which have no key, are taken to be random, and the attacker (`PermGame.Attacker`) may apply them and their inverse: the way in which the key,
the counter and the nonce are put into the state, and the addition of the state at the end, are those of the code. -/

namespace CryptoPure.Props
open CryptoPure.Model CryptoPure.Game CryptoPure.Distinguisher CryptoPure.PermGame
open Spec.ChaCha20 (State)
open Proofs Proofs.ChaChaPerm

attribute [local irreducible] toBE toLE CryptoPure.Model.ChaCha20.block

/-- The block function with `P` in the place of the rounds, under a key. -/
def permutedFunction (P : Equiv.Perm State) (key : ChaChaKey) (x : ChaChaPoint) : ChaChaBlock :=
  ⟨blockFrom P key.1 x.2 x.1.1, out_length _⟩

/-- ChaCha20-Poly1305 with any permutation of the states in the place of the 20 rounds. -/
def permutedPoly (m : Mode) : Scheme (ChaChaKey × Equiv.Perm State) where
  enc k := (ccpOver m).enc (permutedFunction k.2 k.1)
  dec k := (ccpOver m).dec (permutedFunction k.2 k.1)

/-- **The crate's ChaCha20-Poly1305 is among the ciphers that the bounds below are about**: the 20 rounds are a permutation of the states, and with it
each call of the cipher is the call of the crate's code. -/
theorem C139_code : ∃ P : Equiv.Perm State, (∀ s, P s = Spec.ChaCha20.doubleRounds 10 s) ∧ ∀ (m : Mode) (key : ChaChaKey),
    (permutedPoly m).enc (key, P) = (chachaPoly m).enc key ∧ (permutedPoly m).dec (key, P) = (chachaPoly m).dec key := by
  refine ⟨rounds, rounds_apply, fun m key => ?_⟩
  have e : permutedFunction rounds key = chachaFunction key := rfl
  obtain ⟨h1, h2⟩ := chachaPoly_eq m key
  exact ⟨by rw [h1, ← e]; rfl, by rw [h2, ← e]; rfl⟩

theorem permuted_eq (P : Equiv.Perm State) (key : ChaChaKey) :
    permutedFunction P key = PermIdeal.real (fun key (x : ChaChaPoint) => Spec.ChaCha20.init key.1 x.2 x.1.1) ChaChaPerm.mask key P := rfl

theorem card_key : Nat.card ChaChaKey = 2 ^ 256 := by
  rw [card_digest 32]
  norm_num

instance : Nonempty ChaChaKey := ⟨⟨zeros 32, by simp⟩⟩
instance chachaKeyFinite : Finite ChaChaKey := Nat.finite_of_card_ne_zero (by rw [card_key]; positivity)

/-- **The block function under a random key, when the rounds are a random permutation.** A program that applies the rounds or their inverse `p` times
and asks for `s` blocks tells them from blocks of a random function with advantage at most `p (1 + s) / 2^256 + s² / 2^512`. -/
theorem C139_block_function (t : Tester ChaChaPoint ChaChaBlock State) (p s : Nat) (h : t.Within p s) :
    |prob (fun q : ChaChaKey × Equiv.Perm State => t.run q.2 (permutedFunction q.2 q.1) = true) -
      prob (fun q : Equiv.Perm State × (ChaChaPoint → ChaChaBlock) => t.run q.1 q.2 = true)| ≤ (p + p * s) / 2 ^ 256 + s * s / 2 ^ 512 := by
  have := PermIdeal.advantage_le (fun (key : ChaChaKey) (x : ChaChaPoint) => Spec.ChaCha20.init key.1 x.2 x.1.1) ChaChaPerm.mask
    (fun k i k' i' e => init_inj k k' i i' e) mask_inj t p s h
  rw [card_key, card_state, Nat.cast_pow, Nat.cast_pow, Nat.cast_ofNat] at this
  exact this

/-! ## The cipher -/

theorem prob_prod_close {α β : Type} [Finite α] [Finite β] [Nonempty β] (P Q : α × β → Prop) (c : ℚ)
    (h : ∀ b, |prob (fun a => P (a, b)) - prob (fun a => Q (a, b))| ≤ c) : |prob P - prob Q| ≤ c := by
  have : Fintype β := Fintype.ofFinite β
  have hpos : (0 : ℚ) < Fintype.card β := by exact_mod_cast Fintype.card_pos
  rw [prob_prod, prob_prod, ← sub_div, ← Finset.sum_sub_distrib, abs_div, abs_of_pos hpos, div_le_iff₀ hpos]
  refine (Finset.abs_sum_le_sum_abs _ _).trans ((Finset.sum_le_sum fun b _ => h b).trans (le_of_eq ?_))
  rw [Finset.sum_const, Finset.card_univ, nsmul_eq_mul, mul_comm]

/-- Ask for all these values. -/
def askThem : List ChaChaPoint → (List (ChaChaPoint × ChaChaBlock) → Tester ChaChaPoint ChaChaBlock State) → Tester ChaChaPoint ChaChaBlock State
  | [], next => next []
  | x :: xs, next => .ask x fun y => askThem xs fun answers => next ((x, y) :: answers)

theorem askThem_run (P : Equiv.Perm State) (F : ChaChaPoint → ChaChaBlock) (xs : List ChaChaPoint)
    (next : List (ChaChaPoint × ChaChaBlock) → Tester ChaChaPoint ChaChaBlock State) :
    (askThem xs next).run P F = (next (xs.map fun x => (x, F x))).run P F := by
  induction xs generalizing next with
  | nil => rfl
  | cons x xs ih =>
    rw [askThem, Tester.run, ih]
    rfl

theorem askThem_within (xs : List ChaChaPoint) (next : List (ChaChaPoint × ChaChaBlock) → Tester ChaChaPoint ChaChaBlock State) (p s : Nat)
    (h : ∀ t, (next t).Within p s) : (askThem xs next).Within p (xs.length + s) := by
  induction xs generalizing next with
  | nil => exact (h []).mono le_rfl (by simp)
  | cons x xs ih =>
    exact ⟨xs.length + s, by simp only [List.length_cons]; omega, fun y => ih _ fun t => h _⟩

/-- The program that runs an attack and reports whether it forges, or its guess. -/
def testerOf (m : Mode) (forge right : Bool) : Attacker State → Log → Tester ChaChaPoint ChaChaBlock State
  | .stop guess, _ => .verdict (!forge && guess)
  | .encrypt nonce data msg msg' buffer next, log =>
    if nonce ∈ log.map Prod.fst ∨ msg.length ≠ msg'.length then testerOf m forge right (next none) log
    else askThem (ccpPoints nonce msg.length) fun answers =>
      match (ccpOver m).enc (table answers) (if right then msg' else msg) nonce data buffer with
      | none => testerOf m forge right (next none) log
      | some (ct, t) => testerOf m forge right (next (some (ct, t))) ((nonce, data, ct, t) :: log)
  | .decrypt nonce data ct t buffer next, log =>
    if (nonce, data, ct, t) ∈ log then testerOf m forge right (next none) log
    else askThem (ccpPoints nonce ct.length) fun answers =>
      if forge && accepted ((ccpOver m).dec (table answers) ct nonce data t buffer) then .verdict true
      else testerOf m forge right (next ((ccpOver m).dec (table answers) ct nonce data t buffer)) log
  | .permute x next, log => .permute x fun y => testerOf m forge right (next y) log
  | .unpermute y next, log => .unpermute y fun x => testerOf m forge right (next x) log

theorem testerOf_guess (m : Mode) (right : Bool) (P : Equiv.Perm State) (F : ChaChaPoint → ChaChaBlock) (A : Attacker State) (log : Log) :
    (testerOf m false right A log).run P F = play (ccpOver m) right F (A.given P) log := by
  rw [← guessTest_run (ccp_local m)]
  induction A generalizing log with
  | stop g => rfl
  | encrypt nonce data msg msg' buffer next ih =>
    unfold testerOf Attacker.given guessTest
    by_cases hr : nonce ∈ log.map Prod.fst ∨ msg.length ≠ msg'.length
    · rw [if_pos hr, if_pos hr, ih]
    · rw [if_neg hr, if_neg hr, askAll_run, askThem_run]
      cases (ccpOver m).enc (table ((ccpPoints nonce msg.length).map fun x => (x, F x))) (if right = true then msg' else msg) nonce data buffer with
      | none => exact ih _ _
      | some r => exact ih _ _
  | decrypt nonce data ct t buffer next ih =>
    unfold testerOf Attacker.given guessTest
    by_cases hr : (nonce, data, ct, t) ∈ log
    · rw [if_pos hr, if_pos hr, ih]
    · rw [if_neg hr, if_neg hr, askAll_run, askThem_run, Bool.false_and, if_neg (by simp), ih]
  | permute x next ih => exact ih _ _
  | unpermute x next ih => exact ih _ _

theorem testerOf_forge (m : Mode) (right : Bool) (P : Equiv.Perm State) (F : ChaChaPoint → ChaChaBlock) (A : Attacker State) (log : Log) :
    (testerOf m true right A log).run P F = true ↔ forges (ccpOver m) right F (A.given P) log := by
  rw [← forgeryTest_run (ccp_local m)]
  induction A generalizing log with
  | stop g => rfl
  | encrypt nonce data msg msg' buffer next ih =>
    unfold testerOf Attacker.given forgeryTest
    by_cases hr : nonce ∈ log.map Prod.fst ∨ msg.length ≠ msg'.length
    · rw [if_pos hr, if_pos hr, ih]
    · rw [if_neg hr, if_neg hr, askAll_run, askThem_run]
      cases (ccpOver m).enc (table ((ccpPoints nonce msg.length).map fun x => (x, F x))) (if right = true then msg' else msg) nonce data buffer with
      | none => exact ih _ _
      | some r => exact ih _ _
  | decrypt nonce data ct t buffer next ih =>
    unfold testerOf Attacker.given forgeryTest
    by_cases hr : (nonce, data, ct, t) ∈ log
    · rw [if_pos hr, if_pos hr, ih]
    · rw [if_neg hr, if_neg hr, askAll_run, askThem_run, Bool.true_and]
      split
      · rfl
      · exact ih _ _
  | permute x next ih => exact ih _ _
  | unpermute x next ih => exact ih _ _

theorem testerOf_within (m : Mode) (forge right : Bool) (n : Nat) (A : Attacker State) (a s p : Nat) (h : A.Within authCount ccpCost n a s p) (log : Log) :
    (testerOf m forge right A log).Within p s := by
  induction A generalizing a s p log with
  | stop g => trivial
  | encrypt nonce data msg msg' buffer next ih =>
    obtain ⟨-, s, rfl, h⟩ := h
    unfold testerOf
    split
    · exact (ih _ _ _ _ (h none) _).mono le_rfl (by omega)
    · refine (askThem_within _ _ p s fun t => ?_).mono le_rfl (Nat.add_le_add_right (ccpPoints_length nonce _) _)
      split
      · exact ih _ _ _ _ (h none) _
      · exact ih _ _ _ _ (h _) _
  | decrypt nonce data ct t buffer next ih =>
    obtain ⟨-, a, rfl, s, rfl, h⟩ := h
    unfold testerOf
    split
    · exact (ih _ _ _ _ (h none) _).mono le_rfl (by omega)
    · refine (askThem_within _ _ p s fun t => ?_).mono le_rfl (Nat.add_le_add_right (ccpPoints_length nonce _) _)
      split
      · trivial
      · exact ih _ _ _ _ (h _) _
  | permute x next ih =>
    obtain ⟨p, rfl, h⟩ := h
    exact ⟨p, rfl, fun y => ih _ _ _ _ (h y) _⟩
  | unpermute x next ih =>
    obtain ⟨p, rfl, h⟩ := h
    exact ⟨p, rfl, fun y => ih _ _ _ _ (h y) _⟩

theorem given_within (P : Equiv.Perm State) (blocks : Nat → Nat → Nat) (cost : Nat → Nat) (n : Nat) (A : Attacker State) (a s p : Nat)
    (h : A.Within blocks cost n a s p) : Within blocks n (A.given P) a := by
  induction A generalizing a s p with
  | stop g => trivial
  | encrypt nonce data msg msg' buffer next ih =>
    obtain ⟨hn, s, rfl, h⟩ := h
    exact ⟨hn, fun r => ih _ _ _ _ (h r)⟩
  | decrypt nonce data ct t buffer next ih =>
    obtain ⟨hn, a, rfl, s, rfl, h⟩ := h
    exact ⟨hn, a, rfl, fun r => ih _ _ _ _ (h r)⟩
  | permute x next ih =>
    obtain ⟨p, rfl, h⟩ := h
    exact ih _ _ _ _ (h _)
  | unpermute x next ih =>
    obtain ⟨p, rfl, h⟩ := h
    exact ih _ _ _ _ (h _)

theorem permuted_play (m : Mode) (right : Bool) (q : ChaChaKey × Equiv.Perm State) (B : Adversary) (log : Log) :
    play (permutedPoly m) right q B log = play (ccpOver m) right (permutedFunction q.2 q.1) B log := by
  rw [play_congr (S := permutedPoly m) (S' := ccpOver m) (k := q) (k' := permutedFunction q.2 q.1) rfl rfl]

theorem permuted_forges (m : Mode) (right : Bool) (q : ChaChaKey × Equiv.Perm State) (B : Adversary) (log : Log) :
    forges (permutedPoly m) right q B log ↔ forges (ccpOver m) right (permutedFunction q.2 q.1) B log := by
  rw [forges_congr (S := permutedPoly m) (S' := ccpOver m) (k := q) (k' := permutedFunction q.2 q.1) rfl rfl]

/-- **Forging, when the rounds are a random permutation.** An attacker makes at most `a` attempts of at most `n` blocks of 16 bytes each, applies the
rounds or their inverse at most `p` times, and its calls need at most `s` blocks of key stream. For a random key and a random permutation it forges
with probability at most `1480 a n / 2^106 + p (1 + s) / 2^256 + s² / 2^512`. -/
theorem C139_forgery (m : Mode) (A : Attacker State) (a n s p : Nat) (hn : n ≤ 2 ^ 34 - 16) (hA : A.Within authCount ccpCost n a s p) (right : Bool) :
    prob (fun q : ChaChaKey × Equiv.Perm State => forges (permutedPoly m) right q (A.given q.2) []) ≤
      a * (1480 * n) / 2 ^ 106 + (p + p * s) / 2 ^ 256 + s * s / 2 ^ 512 := by
  have h1 := C139_block_function (testerOf m true right A []) p s (testerOf_within m true right n A a s p hA [])
  have e1 : prob (fun q : ChaChaKey × Equiv.Perm State => forges (permutedPoly m) right q (A.given q.2) []) =
      prob (fun q : ChaChaKey × Equiv.Perm State => (testerOf m true right A []).run q.2 (permutedFunction q.2 q.1) = true) :=
    prob_congr fun q => by rw [permuted_forges, testerOf_forge]
  have h2 : prob (fun q : Equiv.Perm State × (ChaChaPoint → ChaChaBlock) => (testerOf m true right A []).run q.1 q.2 = true) ≤
      a * (1480 * n) / 2 ^ 106 := by
    rw [← prob_equiv (Equiv.prodComm (ChaChaPoint → ChaChaBlock) (Equiv.Perm State))]
    refine prob_prod_le _ _ fun P => ?_
    have h3 := C90_ccp_adaptive_forgery m (A.given P) a n hn (given_within P _ _ n A a s p hA) right
    refine le_trans (le_of_eq ?_) h3
    rw [prob_uncurry]
    refine prob_congr fun G => ?_
    show (testerOf m true right A []).run P (fun x => G x.1 x.2) = true ↔ _
    rw [testerOf_forge, forges_congr (S := ccpScheme m) (S' := ccpOver m) (k := G) (k' := fun x => G x.1 x.2) rfl rfl]
  rw [e1]
  have := (abs_le.mp h1).2
  linarith

/-- **Reading, when the rounds are a random permutation.** Such an attacker tells the first messages of its pairs from the second ones with advantage
at most `2 (1480 a n / 2^106 + p (1 + s) / 2^256 + s² / 2^512)`. -/
theorem C139_confidentiality (m : Mode) (A : Attacker State) (a n s p : Nat) (hn : n ≤ 2 ^ 34 - 16) (hA : A.Within authCount ccpCost n a s p) :
    |prob (fun q : ChaChaKey × Equiv.Perm State => play (permutedPoly m) false q (A.given q.2) [] = true) -
      prob (fun q : ChaChaKey × Equiv.Perm State => play (permutedPoly m) true q (A.given q.2) [] = true)| ≤
      2 * (a * (1480 * n) / 2 ^ 106 + (p + p * s) / 2 ^ 256 + s * s / 2 ^ 512) := by
  have h1 := fun right => C139_block_function (testerOf m false right A []) p s (testerOf_within m false right n A a s p hA [])
  have e1 : ∀ right, prob (fun q : ChaChaKey × Equiv.Perm State => play (permutedPoly m) right q (A.given q.2) [] = true) =
      prob (fun q : ChaChaKey × Equiv.Perm State => (testerOf m false right A []).run q.2 (permutedFunction q.2 q.1) = true) := fun right =>
    prob_congr fun q => by rw [permuted_play, testerOf_guess]
  have h2 : |prob (fun q : Equiv.Perm State × (ChaChaPoint → ChaChaBlock) => (testerOf m false false A []).run q.1 q.2 = true) -
      prob (fun q : Equiv.Perm State × (ChaChaPoint → ChaChaBlock) => (testerOf m false true A []).run q.1 q.2 = true)| ≤
      2 * (a * (1480 * n) / 2 ^ 106) := by
    rw [← prob_equiv (Equiv.prodComm (ChaChaPoint → ChaChaBlock) (Equiv.Perm State)),
      ← prob_equiv (Equiv.prodComm (ChaChaPoint → ChaChaBlock) (Equiv.Perm State)) (fun q => (testerOf m false true A []).run q.1 q.2 = true)]
    have key : ∀ P : Equiv.Perm State, |prob (fun F : ChaChaPoint → ChaChaBlock => (testerOf m false false A []).run P F = true) -
        prob (fun F : ChaChaPoint → ChaChaBlock => (testerOf m false true A []).run P F = true)| ≤ 2 * (a * (1480 * n) / 2 ^ 106) := by
      intro P
      have h3 := C90_ccp_adaptive_confidentiality m (A.given P) a n hn (given_within P _ _ n A a s p hA)
      have e : ∀ right, prob (fun F : ChaChaPoint → ChaChaBlock => (testerOf m false right A []).run P F = true) =
          prob (fun G => play (ccpScheme m) right G (A.given P) [] = true) := by
        intro right
        rw [prob_uncurry]
        refine prob_congr fun G => ?_
        rw [testerOf_guess, play_congr (S := ccpScheme m) (S' := ccpOver m) (k := G) (k' := fun x => G x.1 x.2) rfl rfl]
      rw [e, e]
      exact h3
    exact prob_prod_close _ _ _ key
  rw [e1, e1]
  have a1 := abs_le.mp (h1 false)
  have a2 := abs_le.mp (h1 true)
  have a3 := abs_le.mp h2
  rw [abs_le]
  constructor <;> linarith [a1.1, a1.2, a2.1, a2.2, a3.1, a3.2]

/-! ## A concrete case -/

/-- Tries one key: computes a block under it, and compares it with the block of the key stream. -/
def searchKey (key : ChaChaKey) (x : ChaChaPoint) : Tester ChaChaPoint ChaChaBlock State :=
  .ask x fun b => .permute (Spec.ChaCha20.init key.1 x.2 x.1.1) fun y => .verdict (decide (b = ChaChaPerm.mask (Spec.ChaCha20.init key.1 x.2 x.1.1) y))

example (key : ChaChaKey) (x : ChaChaPoint) :
    |prob (fun q : ChaChaKey × Equiv.Perm State => (searchKey key x).run q.2 (permutedFunction q.2 q.1) = true) -
      prob (fun q : Equiv.Perm State × (ChaChaPoint → ChaChaBlock) => (searchKey key x).run q.1 q.2 = true)| ≤ (1 + 1 * 1) / 2 ^ 256 + 1 * 1 / 2 ^ 512 := by
  have := C139_block_function (searchKey key x) 1 1 ⟨0, rfl, fun _ => ⟨0, rfl, fun _ => trivial⟩⟩
  rwa [Nat.cast_one] at this

theorem searchKey_run (P : Equiv.Perm State) (F : ChaChaPoint → ChaChaBlock) (key : ChaChaKey) (x : ChaChaPoint)
    (h : F x = ChaChaPerm.mask (Spec.ChaCha20.init key.1 x.2 x.1.1) (P (Spec.ChaCha20.init key.1 x.2 x.1.1))) : (searchKey key x).run P F = true := by
  simp only [searchKey, Tester.run, h, decide_true]

theorem permuted_at (P : Equiv.Perm State) (key : ChaChaKey) (x : ChaChaPoint) : permutedFunction P key x =
    ChaChaPerm.mask (Spec.ChaCha20.init key.1 x.2 x.1.1) (P (Spec.ChaCha20.init key.1 x.2 x.1.1)) :=
  Subtype.ext rfl

/-- It is right for the key that it tries. -/
example (P : Equiv.Perm State) (key : ChaChaKey) (x : ChaChaPoint) : (searchKey key x).run P (permutedFunction P key) = true :=
  searchKey_run P _ key x (permuted_at P key x)

/-- Encrypts a message, applies the inverse of the rounds to the state that begins with the ciphertext, and sends the message on with the last bit
flipped. -/
def invertAndFlip : Attacker State :=
  .encrypt (zeros 12) [] (zeros 20) (zeros 19 ++ [1]) (zeros 20) fun
    | none => .stop false
    | some (ct, t) => .unpermute (fun r c => Spec.ChaCha20.word ct (4 * r.val + c.val)) fun x =>
      .decrypt (zeros 12) [] (xorBytes (ct.take 20) (zeros 19 ++ [1])) t (zeros 20) fun _ => .stop (decide (x 1 0 = 0))

theorem invertAndFlip_within : invertAndFlip.Within authCount ccpCost 4 1 4 1 := by
  refine ⟨by decide, 2, by decide, fun r => ?_⟩
  match r with
  | none => trivial
  | some (ct, t) =>
    refine ⟨0, rfl, fun x => ?_⟩
    have h : (xorBytes (ct.take 20) (zeros 19 ++ [1])).length ≤ 20 := by simp
    refine ⟨?_, 0, rfl, 2 - ccpCost (xorBytes (ct.take 20) (zeros 19 ++ [1])).length, ?_, fun _ => trivial⟩
    · unfold authCount
      simp only [List.length_nil]
      omega
    · unfold ccpCost
      omega

example : prob (fun q : ChaChaKey × Equiv.Perm State => forges (permutedPoly .debug) true q (invertAndFlip.given q.2) []) ≤
    1 * (1480 * 4) / 2 ^ 106 + (1 + 1 * 4) / 2 ^ 256 + 4 * 4 / 2 ^ 512 := by
  have := C139_forgery .debug invertAndFlip 1 4 4 1 (by norm_num) invertAndFlip_within true
  rwa [Nat.cast_one, Nat.cast_ofNat] at this

end CryptoPure.Props
