import Verif.Spec.MultiPermGame
import Verif.Proofs.PermUsers
import Verif.Props.ChaChaPerm
import Verif.Props.MultiUser

/-! # C141: ChaCha20-Poly1305 with many users, for attackers who can compute the rounds of ChaCha20

C139 with many users, each with a random key. An attacker applies the rounds to states of its choice; each time this may hit the key of any user. -/

namespace CryptoPure.Props
open CryptoPure.Model CryptoPure.MultiGame CryptoPure.MultiPermGame
open Distinguisher (table accepted table_map)
open PermGame (Tester blockFrom)
open Game (Scheme prob prob_prod_le prob_equiv)
open Spec.ChaCha20 (State)
open Proofs Proofs.ChaChaPerm

variable {u : Nat}

attribute [local irreducible] toBE toLE CryptoPure.Model.ChaCha20.block

/-- **The block functions of many users, when the rounds are a random permutation.** A program that applies the rounds or their inverse `p` times and asks
for `s` blocks of key stream, each of any of the `u` users, tells them from blocks of independent random functions with advantage at most
`(u p + p s + u (u - 1) / 2) / 2^256 + s² / 2^512`. -/
theorem C141_block_functions (t : Tester (Fin u × ChaChaPoint) ChaChaBlock State) (p s : Nat) (h : t.Within p s) :
    |prob (fun q : (Fin u → ChaChaKey) × Equiv.Perm State => t.run q.2 (fun x => permutedFunction q.2 (q.1 x.1) x.2) = true) -
      prob (fun q : Equiv.Perm State × (Fin u × ChaChaPoint → ChaChaBlock) => t.run q.1 q.2 = true)| ≤
      (u * p + p * s + u * (u - 1) / 2) / 2 ^ 256 + s * s / 2 ^ 512 := by
  have := PermIdeal.users_le (u := u) ChaChaPerm.mask (fun (key : ChaChaKey) (x : ChaChaPoint) => Spec.ChaCha20.init key.1 x.2 x.1.1)
    (fun k i k' i' e => init_inj k k' i i' e) mask_inj t p s h
  rw [card_key, card_state, Nat.cast_pow, Nat.cast_pow, Nat.cast_ofNat] at this
  exact this

/-! ## The cipher -/

/-- Ask for all these values of one user. -/
def askFor (i : Fin u) : List ChaChaPoint → (List (ChaChaPoint × ChaChaBlock) → Tester (Fin u × ChaChaPoint) ChaChaBlock State) →
    Tester (Fin u × ChaChaPoint) ChaChaBlock State
  | [], next => next []
  | x :: xs, next => .ask (i, x) fun y => askFor i xs fun answers => next ((x, y) :: answers)

theorem askFor_run (P : Equiv.Perm State) (F : Fin u × ChaChaPoint → ChaChaBlock) (i : Fin u) (xs : List ChaChaPoint)
    (next : List (ChaChaPoint × ChaChaBlock) → Tester (Fin u × ChaChaPoint) ChaChaBlock State) :
    (askFor i xs next).run P F = (next (xs.map fun x => (x, F (i, x)))).run P F := by
  induction xs generalizing next with
  | nil => rfl
  | cons x xs ih =>
    rw [askFor, Tester.run, ih]
    rfl

theorem askFor_within (i : Fin u) (xs : List ChaChaPoint) (next : List (ChaChaPoint × ChaChaBlock) → Tester (Fin u × ChaChaPoint) ChaChaBlock State)
    (p s : Nat) (h : ∀ t, (next t).Within p s) : (askFor i xs next).Within p (xs.length + s) := by
  induction xs generalizing next with
  | nil => exact (h []).mono le_rfl (by simp)
  | cons x xs ih =>
    exact ⟨xs.length + s, by simp only [List.length_cons]; omega, fun y => ih _ fun t => h _⟩

/-- The program that runs an attack and reports whether it forges, or its guess. -/
def usersTester (m : Mode) (forge right : Bool) : Attacker u State → Log u → Tester (Fin u × ChaChaPoint) ChaChaBlock State
  | .stop guess, _ => .verdict (!forge && guess)
  | .encrypt i nonce data msg msg' buffer next, log =>
    if (i, nonce) ∈ log.map (fun e => (e.1, e.2.1)) ∨ msg.length ≠ msg'.length then usersTester m forge right (next none) log
    else askFor i (ccpPoints nonce msg.length) fun answers =>
      match (ccpOver m).enc (table answers) (if right then msg' else msg) nonce data buffer with
      | none => usersTester m forge right (next none) log
      | some (ct, t) => usersTester m forge right (next (some (ct, t))) ((i, nonce, data, ct, t) :: log)
  | .decrypt i nonce data ct t buffer next, log =>
    if (i, nonce, data, ct, t) ∈ log then usersTester m forge right (next none) log
    else askFor i (ccpPoints nonce ct.length) fun answers =>
      if forge && accepted ((ccpOver m).dec (table answers) ct nonce data t buffer) then .verdict true
      else usersTester m forge right (next ((ccpOver m).dec (table answers) ct nonce data t buffer)) log
  | .permute x next, log => .permute x fun y => usersTester m forge right (next y) log
  | .unpermute y next, log => .unpermute y fun x => usersTester m forge right (next x) log

theorem usersTester_run (m : Mode) (right : Bool) (P : Equiv.Perm State) (F : Fin u × ChaChaPoint → ChaChaBlock) (A : Attacker u State) (log : Log u) :
    (usersTester m false right A log).run P F = play (ccpOver m) right (fun i x => F (i, x)) (A.given P) log ∧
    ((usersTester m true right A log).run P F = true ↔ forges (ccpOver m) right (fun i x => F (i, x)) (A.given P) log) := by
  induction A generalizing log with
  | stop g => exact ⟨rfl, by simp [usersTester, Tester.run, Attacker.given, forges]⟩
  | encrypt i nonce data msg msg' buffer next ih =>
    unfold usersTester Attacker.given play forges
    by_cases hr : (i, nonce) ∈ log.map (fun e => (e.1, e.2.1)) ∨ msg.length ≠ msg'.length
    · simp only [if_pos hr]
      exact ih _ _
    · have hl : (if right = true then msg' else msg).length = msg.length := by
        rw [not_or, not_not] at hr
        split
        · exact hr.2.symm
        · rfl
      simp only [if_neg hr, askFor_run]
      rw [(ccp_local m).enc (table ((ccpPoints nonce msg.length).map fun x => (x, F (i, x)))) (fun x => F (i, x)) (if right = true then msg' else msg)
        nonce data buffer (by rw [hl]; exact fun x hx => table_map (fun x => F (i, x)) _ x hx)]
      cases (ccpOver m).enc (fun x => F (i, x)) (if right = true then msg' else msg) nonce data buffer with
      | none => exact ih _ _
      | some r => exact ih _ _
  | decrypt i nonce data ct t buffer next ih =>
    unfold usersTester Attacker.given play forges
    by_cases hr : (i, nonce, data, ct, t) ∈ log
    · simp only [if_pos hr]
      exact ih _ _
    · simp only [if_neg hr, askFor_run]
      rw [(ccp_local m).dec (table ((ccpPoints nonce ct.length).map fun x => (x, F (i, x)))) (fun x => F (i, x)) ct nonce data t buffer
        (fun x hx => table_map (fun x => F (i, x)) _ x hx)]
      obtain ⟨h1, h2⟩ := ih ((ccpOver m).dec (fun x => F (i, x)) ct nonce data t buffer) log
      refine ⟨by simpa using h1, ?_⟩
      rw [← Distinguisher.accepted_iff, ← h2]
      cases Distinguisher.accepted ((ccpOver m).dec (fun x => F (i, x)) ct nonce data t buffer) <;> simp [Tester.run]
  | permute x next ih => exact ih _ _
  | unpermute x next ih => exact ih _ _

theorem usersTester_within (m : Mode) (forge right : Bool) (n : Nat) (A : Attacker u State) (a s p : Nat) (h : A.Within authCount ccpCost n a s p)
    (log : Log u) : (usersTester m forge right A log).Within p s := by
  induction A generalizing a s p log with
  | stop g => trivial
  | encrypt i nonce data msg msg' buffer next ih =>
    obtain ⟨-, s, rfl, h⟩ := h
    unfold usersTester
    split
    · exact (ih _ _ _ _ (h none) _).mono le_rfl (by omega)
    · refine (askFor_within _ _ _ p s fun t => ?_).mono le_rfl (Nat.add_le_add_right (ccpPoints_length nonce _) _)
      split
      · exact ih _ _ _ _ (h none) _
      · exact ih _ _ _ _ (h _) _
  | decrypt i nonce data ct t buffer next ih =>
    obtain ⟨-, a, rfl, s, rfl, h⟩ := h
    unfold usersTester
    split
    · exact (ih _ _ _ _ (h none) _).mono le_rfl (by omega)
    · refine (askFor_within _ _ _ p s fun t => ?_).mono le_rfl (Nat.add_le_add_right (ccpPoints_length nonce _) _)
      split
      · trivial
      · exact ih _ _ _ _ (h _) _
  | permute x next ih =>
    obtain ⟨p, rfl, h⟩ := h
    exact ⟨p, rfl, fun y => ih _ _ _ _ (h y) _⟩
  | unpermute x next ih =>
    obtain ⟨p, rfl, h⟩ := h
    exact ⟨p, rfl, fun y => ih _ _ _ _ (h y) _⟩

theorem users_given_within (P : Equiv.Perm State) (blocks : Nat → Nat → Nat) (cost : Nat → Nat) (n : Nat) (A : Attacker u State) (a s p : Nat)
    (h : A.Within blocks cost n a s p) : Within blocks n (A.given P) a := by
  induction A generalizing a s p with
  | stop g => trivial
  | encrypt i nonce data msg msg' buffer next ih =>
    obtain ⟨hn, s, rfl, h⟩ := h
    exact ⟨hn, fun r => ih _ _ _ _ (h r)⟩
  | decrypt i nonce data ct t buffer next ih =>
    obtain ⟨hn, a, rfl, s, rfl, h⟩ := h
    exact ⟨hn, a, rfl, fun r => ih _ _ _ _ (h r)⟩
  | permute x next ih =>
    obtain ⟨p, rfl, h⟩ := h
    exact ih _ _ _ _ (h _)
  | unpermute x next ih =>
    obtain ⟨p, rfl, h⟩ := h
    exact ih _ _ _ _ (h _)

theorem users_over (m : Mode) (right : Bool) (keys : Fin u → ChaChaKey) (P : Equiv.Perm State) (B : Adversary u) :
    play (permutedPoly m) right (fun i => (keys i, P)) B [] = play (ccpOver m) right (fun i => permutedFunction P (keys i)) B [] ∧
    (forges (permutedPoly m) right (fun i => (keys i, P)) B [] ↔ forges (ccpOver m) right (fun i => permutedFunction P (keys i)) B []) :=
  over_congr (S := ccpOver m) (S' := permutedPoly m) (fun i => (keys i, P)) (fun k => permutedFunction k.2 k.1) (fun _ => ⟨rfl, rfl⟩) right B []

/-- Independent random functions as one. -/
def gather (u : Nat) : (Fin u → BlockSource) ≃ (Fin u × ChaChaPoint → ChaChaBlock) where
  toFun G x := G x.1 x.2.1 x.2.2
  invFun F i n c := F (i, n, c)
  left_inv _ := rfl
  right_inv _ := rfl

theorem gather_over (m : Mode) (right : Bool) (G : Fin u → BlockSource) (B : Adversary u) :
    play (ccpOver m) right (fun i x => gather u G (i, x)) B [] = play (ccpScheme m) right G B [] ∧
    (forges (ccpOver m) right (fun i x => gather u G (i, x)) B [] ↔ forges (ccpScheme m) right G B []) := by
  have := over_congr (S := ccpOver m) (S' := ccpScheme m) G (fun G x => G x.1 x.2) (fun _ => ⟨rfl, rfl⟩) right B []
  exact ⟨this.1.symm, this.2.symm⟩

/-- **Forging under one of many keys, when the rounds are a random permutation.** An attacker makes at most `a` attempts of at most `n` blocks of 16 bytes
each, applies the rounds or their inverse at most `p` times, and the calls of all users need at most `s` blocks of key stream. For `u` independent random
keys and a random permutation it makes some user accept a forgery with probability at most
`1480 a n / 2^106 + (u p + p s + u (u - 1) / 2) / 2^256 + s² / 2^512`. -/
theorem C141_forgery (m : Mode) (A : Attacker u State) (a n s p : Nat) (hn : n ≤ 2 ^ 34 - 16) (hA : A.Within authCount ccpCost n a s p) (right : Bool) :
    prob (fun q : (Fin u → ChaChaKey) × Equiv.Perm State => forges (permutedPoly m) right (fun i => (q.1 i, q.2)) (A.given q.2) []) ≤
      a * (1480 * n) / 2 ^ 106 + (u * p + p * s + u * (u - 1) / 2) / 2 ^ 256 + s * s / 2 ^ 512 := by
  have h1 := C141_block_functions (usersTester m true right A []) p s (usersTester_within m true right n A a s p hA [])
  have e1 : prob (fun q : (Fin u → ChaChaKey) × Equiv.Perm State => forges (permutedPoly m) right (fun i => (q.1 i, q.2)) (A.given q.2) []) =
      prob (fun q : (Fin u → ChaChaKey) × Equiv.Perm State =>
        (usersTester m true right A []).run q.2 (fun x => permutedFunction q.2 (q.1 x.1) x.2) = true) :=
    prob_congr fun q => by rw [(users_over m right q.1 q.2 _).2, (usersTester_run m right q.2 _ A []).2]
  have h2 : prob (fun q : Equiv.Perm State × (Fin u × ChaChaPoint → ChaChaBlock) => (usersTester m true right A []).run q.1 q.2 = true) ≤
      a * (1480 * n) / 2 ^ 106 := by
    rw [← prob_equiv (Equiv.prodComm (Fin u × ChaChaPoint → ChaChaBlock) (Equiv.Perm State))]
    refine prob_prod_le _ _ fun P => ?_
    refine le_trans (le_of_eq ?_) (C121_ccp_forgery m (A.given P) a n hn (users_given_within P _ _ n A a s p hA) right)
    refine Eq.trans (prob_equiv (gather u) _).symm (prob_congr fun G => ?_)
    exact (usersTester_run m right P (gather u G) A []).2.trans (gather_over m right G _).2
  rw [e1]
  have := (abs_le.mp h1).2
  linarith

/-- **Reading under many keys, when the rounds are a random permutation.** Such an attacker tells the first messages of its pairs from the second ones with
advantage at most twice that. -/
theorem C141_confidentiality (m : Mode) (A : Attacker u State) (a n s p : Nat) (hn : n ≤ 2 ^ 34 - 16) (hA : A.Within authCount ccpCost n a s p) :
    |prob (fun q : (Fin u → ChaChaKey) × Equiv.Perm State => play (permutedPoly m) false (fun i => (q.1 i, q.2)) (A.given q.2) [] = true) -
      prob (fun q : (Fin u → ChaChaKey) × Equiv.Perm State => play (permutedPoly m) true (fun i => (q.1 i, q.2)) (A.given q.2) [] = true)| ≤
      2 * (a * (1480 * n) / 2 ^ 106 + (u * p + p * s + u * (u - 1) / 2) / 2 ^ 256 + s * s / 2 ^ 512) := by
  have h1 := fun right => C141_block_functions (usersTester m false right A []) p s (usersTester_within m false right n A a s p hA [])
  have e1 : ∀ right, prob (fun q : (Fin u → ChaChaKey) × Equiv.Perm State => play (permutedPoly m) right (fun i => (q.1 i, q.2)) (A.given q.2) [] = true) =
      prob (fun q : (Fin u → ChaChaKey) × Equiv.Perm State =>
        (usersTester m false right A []).run q.2 (fun x => permutedFunction q.2 (q.1 x.1) x.2) = true) := fun right =>
    prob_congr fun q => by rw [(users_over m right q.1 q.2 _).1, (usersTester_run m right q.2 _ A []).1]
  have h2 : |prob (fun q : Equiv.Perm State × (Fin u × ChaChaPoint → ChaChaBlock) => (usersTester m false false A []).run q.1 q.2 = true) -
      prob (fun q : Equiv.Perm State × (Fin u × ChaChaPoint → ChaChaBlock) => (usersTester m false true A []).run q.1 q.2 = true)| ≤
      2 * (a * (1480 * n) / 2 ^ 106) := by
    rw [← prob_equiv (Equiv.prodComm (Fin u × ChaChaPoint → ChaChaBlock) (Equiv.Perm State)),
      ← prob_equiv (Equiv.prodComm (Fin u × ChaChaPoint → ChaChaBlock) (Equiv.Perm State)) (fun q => (usersTester m false true A []).run q.1 q.2 = true)]
    have key : ∀ P : Equiv.Perm State, |prob (fun F : Fin u × ChaChaPoint → ChaChaBlock => (usersTester m false false A []).run P F = true) -
        prob (fun F : Fin u × ChaChaPoint → ChaChaBlock => (usersTester m false true A []).run P F = true)| ≤ 2 * (a * (1480 * n) / 2 ^ 106) := by
      intro P
      have h3 := C121_ccp_confidentiality m (A.given P) a n hn (users_given_within P _ _ n A a s p hA)
      have e : ∀ right, prob (fun F : Fin u × ChaChaPoint → ChaChaBlock => (usersTester m false right A []).run P F = true) =
          prob (fun G : Fin u → BlockSource => play (ccpScheme m) right G (A.given P) [] = true) := by
        intro right
        refine Eq.trans (prob_equiv (gather u) _).symm (prob_congr fun G => ?_)
        rw [(usersTester_run m right P (gather u G) A []).1, (gather_over m right G _).1]
      rw [e, e]
      exact h3
    exact prob_prod_close _ _ _ key
  rw [e1, e1]
  have a1 := abs_le.mp (h1 false)
  have a2 := abs_le.mp (h1 true)
  have a3 := abs_le.mp h2
  rw [abs_le]
  constructor <;> linarith [a1.1, a1.2, a2.1, a2.2, a3.1, a3.2]

/-! ## Trying a key works -/

/-- Tries one key: computes the tag of the empty message under it, and sends the empty message with this tag to a user. -/
def forgeUnder (m : Mode) (key : ChaChaKey) (user : Fin u) : Attacker u State :=
  .permute (Spec.ChaCha20.init key.1 0 (zeros 12)) fun y =>
    .decrypt user (zeros 12) [] [] ((Model.Poly1305.poly1305 m ((ChaChaPerm.mask (Spec.ChaCha20.init key.1 0 (zeros 12)) y).1.take 32) [] []).getD []) []
      fun _ => .stop true

theorem forgeUnder_within (m : Mode) (key : ChaChaKey) (user : Fin u) : (forgeUnder m key user).Within authCount ccpCost 1 1 1 1 :=
  ⟨0, rfl, fun _ => ⟨by decide, 0, rfl, 0, by decide, fun _ => trivial⟩⟩

theorem process_empty (m : Mode) (block : U32 → Bytes) : processWith m block [] [] = some [] := by
  unfold processWith
  rw [show chunks 64 ([] : Bytes) = [] by decide]
  rfl

theorem accepts_empty (m : Mode) (F : ChaChaPoint → ChaChaBlock) : (ccpOver m).dec F [] (zeros 12) []
    ((Model.Poly1305.poly1305 m ((F (⟨zeros 12, by simp⟩, 0)).1.take 32) [] []).getD []) [] = some ([], true) := by
  show decryptWith m (setupOf fun n i => F (n, i)) [] (zeros 12) [] _ [] = _
  unfold decryptWith
  rw [setupOf_some (by simp)]
  have ht := poly1305_tagOf m (F (⟨zeros 12, by simp⟩, 0)) [] []
  generalize tagOf [] [] (keyHalves (F (⟨zeros 12, by simp⟩, 0))) = t at ht
  have hv : Util.verify16 t t = some true := (Proofs.compare_spec _ _).trans (by simp)
  rw [ht, Option.getD_some]
  simp only [Option.bind_eq_bind, Option.bind_some, ht, hv, process_empty, if_true]
  rfl

/-- **Whoever tries the right key forges**, with one use of the rounds and one attempt. -/
theorem C141_right_key (m : Mode) (keys : Fin u → ChaChaKey) (P : Equiv.Perm State) (user : Fin u) (right : Bool) :
    forges (permutedPoly m) right (fun i => (keys i, P)) ((forgeUnder m (keys user) user).given P) [] := by
  rw [(users_over m right keys P _).2]
  have h := accepts_empty m (permutedFunction P (keys user))
  rw [permuted_at] at h
  unfold forgeUnder
  rw [Attacker.given, Attacker.given, forges, if_neg (List.not_mem_nil)]
  exact Or.inl ⟨[], h⟩

/-- So trying one key succeeds with at least the probability that it is the right one. -/
theorem C141_one_try (m : Mode) (key : ChaChaKey) (user : Fin u) (right : Bool) :
    1 / 2 ^ 256 ≤ prob (fun q : (Fin u → ChaChaKey) × Equiv.Perm State =>
      forges (permutedPoly m) right (fun i => (q.1 i, q.2)) ((forgeUnder m key user).given q.2) []) := by
  have h1 : prob (fun q : (Fin u → ChaChaKey) × Equiv.Perm State => q.1 user = key) ≤ _ := Game.prob_mono
      (Q := fun q : (Fin u → ChaChaKey) × Equiv.Perm State => forges (permutedPoly m) right (fun i => (q.1 i, q.2)) ((forgeUnder m key user).given q.2) [])
    fun q hq => by
      rw [← hq]
      exact C141_right_key m q.1 q.2 user right
  refine le_trans (le_of_eq ?_) h1
  have : Nonempty (Equiv.Perm State) := ⟨1⟩
  rw [Game.prob_fst (fun keys : Fin u → ChaChaKey => keys user = key), Proofs.KeySearch.prob_at, card_key, Nat.cast_pow, Nat.cast_ofNat]

/-! ## A concrete case -/

example (m : Mode) (key : ChaChaKey) (user : Fin 1000) (right : Bool) :
    prob (fun q : (Fin 1000 → ChaChaKey) × Equiv.Perm State => forges (permutedPoly m) right (fun i => (q.1 i, q.2)) ((forgeUnder m key user).given q.2) []) ≤
      1 * (1480 * 1) / 2 ^ 106 + (1000 * 1 + 1 * 1 + 1000 * (1000 - 1) / 2) / 2 ^ 256 + 1 * 1 / 2 ^ 512 := by
  have := C141_forgery m (forgeUnder m key user) 1 1 1 1 (by norm_num) (forgeUnder_within m key user) right
  rwa [Nat.cast_one, Nat.cast_ofNat] at this

end CryptoPure.Props
