import Verif.Spec.KeyGame
import Verif.Proofs.KeyIdeal
import Verif.Props.RandomAead
import Verif.Props.RandomNonceCode

/-! # C150: ciphertexts show neither the message nor whose key made them -/

namespace CryptoPure.Props.KeyPrivacy
open CryptoPure.Model CryptoPure.Props CryptoPure.Game CryptoPure.Distinguisher
open CryptoPure.Proofs.KeyIdeal

variable {u : Nat}

theorem focus_costs {cost : Nat → Nat} (E : Env u) (right : Bool) (h : Fin u) (A : KeyGame.Adversary u) (s : Nat) (hA : KeyGame.Costs cost A s)
    (log : List (KeyGame.Entry u)) : Costs cost (focus E right h A log) s := by
  induction A generalizing s log with
  | stop g => trivial
  | encrypt user user' nonce data msg msg' buffer next ih =>
    obtain ⟨s, rfl, hA⟩ := hA
    unfold focus
    by_cases hr : KeyGame.Refused log user user' nonce msg msg'
    · rw [if_pos hr]
      exact costs_mono _ (ih _ _ (hA _) _) (by omega)
    · rw [if_neg hr]
      have hl : (if right then msg' else msg).length = msg.length := by
        split
        · exact (not_not.mp (not_or.mp hr).1).symm
        · rfl
      by_cases hh : (if right then user' else user) = h
      · rw [if_pos hh]
        refine ⟨s, by rw [hl], fun r => ?_⟩
        match r with
        | none => exact ih _ _ (hA _) _
        | some (ct, t) => exact ih _ _ (hA _) _
      · rw [if_neg hh]
        generalize E.enc _ _ nonce data buffer = r
        match r with
        | none => exact costs_mono _ (ih _ _ (hA _) _) (by omega)
        | some (ct, t) => exact costs_mono _ (ih _ _ (hA _) _) (by omega)
  | decrypt user nonce data ct t buffer next ih =>
    obtain ⟨s, rfl, hA⟩ := hA
    unfold focus
    split
    · exact costs_mono _ (ih _ _ (hA _) _) (by omega)
    · split
      · exact ⟨s, rfl, fun r => ih _ _ (hA r) _⟩
      · exact costs_mono _ (ih _ _ (hA _) _) (by omega)

/-! ## ChaCha20-Poly1305 -/

/-- The distinguisher against ChaCha20 made of an attack: it asks its function about the blocks of user `h`, answers for the users before `h` with the random bytes `Ts`, and for those after `h`
with the keys `ks`. -/
noncomputable def chachaFromKeyGame (m : Mode) (n : Nat) (A : KeyGame.Adversary u) (right : Bool) (h : Fin u) (ks : Fin u → ChaChaKey)
    (Ts : Fin u → RandomBytes (16 * n + 16)) : Distinguisher ChaChaPoint ChaChaBlock :=
  chachaFromGuesser m false (focus (hybrid (chachaPoly m) (randomAead (16 * n)) h.1 ks Ts) right h A [])

/-- It asks for no more blocks than the attack makes the crate compute. -/
theorem C150_ccp_distinguisher (m : Mode) (n : Nat) (A : KeyGame.Adversary u) (s : Nat) (hs : KeyGame.Costs ccpCost A s) (right : Bool) (h : Fin u)
    (ks : Fin u → ChaChaKey) (Ts : Fin u → RandomBytes (16 * n + 16)) : (chachaFromKeyGame m n A right h ks Ts).Asks s :=
  (C120_ccp_distinguisher m _ s (focus_costs _ right h A s hs []) false).2

/-- **ChaCha20-Poly1305 of the crate hides the message and the key.** Each of `u` users has a random key. An adaptive attack names two users and two messages of one length for each encryption, and
gets either always the first message encrypted under the key of the first user, or always the second under the key of the second; it calls `decrypt` of any user on anything else `a` times. If the
distinguishers against the ChaCha20 block function made of it have an advantage of at most `ε`, then it finds out which with an advantage of at most `2 u (ε + 1480 a n / 2^106)`. -/
theorem C150_ccp_hides (m : Mode) (A : KeyGame.Adversary u) (a n : Nat) (hn : n ≤ 2 ^ 34 - 16) (hA : KeyGame.Within authCount n A a) (ε : ℚ)
    (hε : ∀ right h ks Ts, chachaAdvantage (chachaFromKeyGame m n A right h ks Ts) ≤ ε) :
    |prob (fun ks : Fin u → ChaChaKey => KeyGame.play (chachaPoly m) false ks A [] = true) -
      prob (fun ks : Fin u → ChaChaKey => KeyGame.play (chachaPoly m) true ks A [] = true)| ≤ 2 * u * (ε + a * (1480 * n) / 2 ^ 106) := by
  refine hidden (l := 16 * n) (chachaPoly m) A _ fun right h ks Ts => ?_
  have h1 := Props.RandomAead.C149_ccp_random m _ a n hn (focus_within (hybrid (chachaPoly m) (randomAead (16 * n)) h.1 ks Ts) right h A a hA []) false
  have h2 := hε right h ks Ts
  unfold chachaFromKeyGame at h2
  linarith

/-! ## AES-GCM -/

/-- The distinguisher against AES made of an attack. -/
noncomputable def aesFromKeyGame (k : AesKind) (m : Mode) (n : Nat) (A : KeyGame.Adversary u) (right : Bool) (h : Fin u) (ks : Fin u → AesKey k)
    (Ts : Fin u → RandomBytes (16 * n + 16)) : Distinguisher (BitVec 128) (BitVec 128) :=
  aesFromGuesser m false (focus (hybrid (aesGcm k m) (randomAead (16 * n)) h.1 ks Ts) right h A [])

/-- It asks for no more blocks than the attack makes the crate compute. -/
theorem C150_gcm_distinguisher (k : AesKind) (m : Mode) (n : Nat) (A : KeyGame.Adversary u) (s : Nat) (hs : KeyGame.Costs gcmCost A s) (right : Bool) (h : Fin u)
    (ks : Fin u → AesKey k) (Ts : Fin u → RandomBytes (16 * n + 16)) : (aesFromKeyGame k m n A right h ks Ts).Asks s :=
  (C120_gcm_distinguisher m _ s (focus_costs _ right h A s hs []) false).2

/-- **AES-GCM of the crate hides the message and the key.** The same for an attack in which `s` blocks are encrypted with AES: at most `2 u (ε + a n / 2^128 + s (s - 1) / 2^129)`. -/
theorem C150_gcm_hides (k : AesKind) (m : Mode) (A : KeyGame.Adversary u) (a n s : Nat) (hn : n ≤ 2 ^ 32 - 3) (hA : KeyGame.Within authCount n A a)
    (hs : KeyGame.Costs gcmCost A s) (ε : ℚ) (hε : ∀ right h ks Ts, aesAdvantage k (aesFromKeyGame k m n A right h ks Ts) ≤ ε) :
    |prob (fun ks : Fin u → AesKey k => KeyGame.play (aesGcm k m) false ks A [] = true) -
      prob (fun ks : Fin u → AesKey k => KeyGame.play (aesGcm k m) true ks A [] = true)| ≤ 2 * u * (ε + a * n / 2 ^ 128 + s * (s - 1) / 2 ^ 129) := by
  refine hidden (l := 16 * n) (aesGcm k m) A _ fun right h ks Ts => ?_
  have h1 := Props.RandomAead.C149_gcm_random k m _ a n s hn (focus_within (hybrid (aesGcm k m) (randomAead (16 * n)) h.1 ks Ts) right h A a hA []) (focus_costs _ right h A s hs []) false
  have h2 := hε right h ks Ts
  unfold aesFromKeyGame at h2
  linarith

/-! ## A concrete attack

The first user encrypts; then the second, a message under the same nonce; then the one or the other. A mix of what was sent is tried on the first user, and in the end ciphertexts are compared. -/

/-- Are the ciphertexts of one user? -/
def sameKey : KeyGame.Adversary 2 :=
  .encrypt 0 0 (zeros 12) [] [1, 2, 3] [1, 2, 3] (zeros 3) fun _ =>
    .encrypt 1 1 (zeros 12) [] [4, 5, 6] [7, 8, 9] (zeros 3) fun r =>
      .encrypt 0 1 (1 :: zeros 11) [] [4] [4] (zeros 1) fun r' =>
        match r, r' with
        | some (c, t), some (c', t') => .decrypt 0 (1 :: zeros 11) [] ((c' ++ c).take 4) t' (zeros 4) fun
          | some (_, true) => .stop true
          | _ => .stop (decide (c.head? = c'.head? ∧ t.head? = t'.head?))
        | _, _ => .stop false

/-- The game refuses none of its encryptions. -/
example (c t c' t' : Bytes) : ¬ KeyGame.Refused (u := 2) [] 0 0 (zeros 12) [1, 2, 3] [1, 2, 3] ∧
    ¬ KeyGame.Refused (u := 2) [⟨0, 0, zeros 12, [], c, t⟩] 1 1 (zeros 12) [4, 5, 6] [7, 8, 9] ∧
    ¬ KeyGame.Refused (u := 2) [⟨1, 1, zeros 12, [], c', t'⟩, ⟨0, 0, zeros 12, [], c, t⟩] 0 1 (1 :: zeros 11) [4] [4] := by
  unfold KeyGame.Refused
  refine ⟨by simp, by simp, ?_⟩
  have : (zeros 12) ≠ 1#8 :: zeros 11 := by decide
  simpa using this

theorem sameKey_within : KeyGame.Within authCount 4 sameKey 1 := by
  refine ⟨by decide, fun r1 => ⟨by decide, fun r => ⟨by decide, fun r' => ?_⟩⟩⟩
  match r, r' with
  | none, _ => trivial
  | some _, none => trivial
  | some (c, t), some (c', t') =>
    refine ⟨?_, 0, rfl, fun r => ?_⟩
    · have : ((c' ++ c).take 4).length ≤ 4 := by rw [List.length_take]; omega
      unfold authCount
      simp only [List.length_nil]
      omega
    · dsimp only
      split <;> trivial

theorem sameKey_costs : KeyGame.Costs gcmCost sameKey 12 ∧ KeyGame.Costs ccpCost sameKey 8 := by
  constructor
  · refine ⟨9, by decide, fun r1 => ⟨6, by decide, fun r => ⟨3, by decide, fun r' => ?_⟩⟩⟩
    match r, r' with
    | none, _ => trivial
    | some _, none => trivial
    | some (c, t), some (c', t') =>
      refine ⟨3 - gcmCost ((c' ++ c).take 4).length, ?_, fun r => ?_⟩
      · have : ((c' ++ c).take 4).length ≤ 4 := by rw [List.length_take]; omega
        unfold gcmCost
        omega
      · dsimp only
        split <;> trivial
  · refine ⟨6, by decide, fun r1 => ⟨4, by decide, fun r => ⟨2, by decide, fun r' => ?_⟩⟩⟩
    match r, r' with
    | none, _ => trivial
    | some _, none => trivial
    | some (c, t), some (c', t') =>
      refine ⟨2 - ccpCost ((c' ++ c).take 4).length, ?_, fun r => ?_⟩
      · have : ((c' ++ c).take 4).length ≤ 4 := by rw [List.length_take]; omega
        unfold ccpCost
        omega
      · dsimp only
        split <;> trivial

example (ε : ℚ) (hε : ∀ right h ks Ts, chachaAdvantage (chachaFromKeyGame .debug 4 sameKey right h ks Ts) ≤ ε) :
    |prob (fun ks => KeyGame.play (chachaPoly .debug) false ks sameKey [] = true) - prob (fun ks => KeyGame.play (chachaPoly .debug) true ks sameKey [] = true)| ≤
      2 * 2 * (ε + 1 * (1480 * 4) / 2 ^ 106) := by
  simpa using C150_ccp_hides .debug sameKey 1 4 (by norm_num) sameKey_within ε hε

example (ε : ℚ) (hε : ∀ right h ks Ts, aesAdvantage .aes128 (aesFromKeyGame .aes128 .debug 4 sameKey right h ks Ts) ≤ ε) :
    |prob (fun ks => KeyGame.play (aesGcm .aes128 .debug) false ks sameKey [] = true) - prob (fun ks => KeyGame.play (aesGcm .aes128 .debug) true ks sameKey [] = true)| ≤
      2 * 2 * (ε + 1 * 4 / 2 ^ 128 + 12 * (12 - 1) / 2 ^ 129) := by
  simpa using C150_gcm_hides .aes128 .debug sameKey 1 4 12 (by norm_num) sameKey_within sameKey_costs.1 ε hε

end CryptoPure.Props.KeyPrivacy
