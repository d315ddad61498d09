import Verif.Props.HmacPrf
import Verif.Props.Collision

/-! # C152: commitments made of HMAC

To commit to a message, draw a random key, publish the tag of the message under it, and keep the key; to open the commitment, publish message and key, which are checked with `hmac::verify`. -/

namespace CryptoPure.Props.Commitment
open CryptoPure.Model CryptoPure.Props Spec.Sha2 MacGame Proofs Proofs.HmacSha Proofs.HmacPrf HmacTests Distinguisher
open Game hiding play forges

/-- The attacker that sees the commitment to `M`, and guesses. -/
def onlooker {w : Nat} (M : Bytes) (guess : Bytes → Bool) : Attacker w Bool := .tag M fun c => .stop (guess c)

theorem onlooker_play (v : Variant) (m : Mode) (k M : Bytes) (guess : Bytes → Bool) :
    play (crateWorld v m k) (onlooker M guess) = (Hmac.wrapper v.code m k M).map guess := by
  unfold onlooker play
  show (match Hmac.wrapper v.code m k M with | none => none | some t => play (crateWorld v m k) (.stop (guess t))) = _
  cases Hmac.wrapper v.code m k M <;> rfl

theorem ideal_same {w N n : Nat} (f : Oct w → Bytes → Oct w) (M M' : Bytes) (hM : M.length ≤ N) (hM' : M'.length ≤ N) (guess : Bytes → Bool) :
    prob (fun G : Keyed N n => play (idealWorld f G) (onlooker M guess) = some true) =
      prob (fun G : Keyed N n => play (idealWorld f G) (onlooker M' guess) = some true) := by
  classical
  rw [← prob_equiv (Equiv.arrowCongr (Equiv.swap (⟨M, hM⟩ : {x : Bytes // x.length ≤ N}) ⟨M', hM'⟩) (Equiv.refl _))
    (fun G : Keyed N n => play (idealWorld f G) (onlooker M guess) = some true)]
  refine hmac_prob_congr fun G => ?_
  have e : ∀ (G : Keyed N n) (x : Bytes) (hx : x.length ≤ N), play (idealWorld f G) (onlooker x guess) = some (guess (G ⟨x, hx⟩).1) := by
    intro G x hx
    show some (guess (Keyed.ask G x)) = _
    unfold Keyed.ask
    rw [dif_pos hx]
  rw [e _ _ hM, e _ _ hM']
  show some (guess (G ((Equiv.swap _ _).symm _)).1) = _ ↔ _
  rw [Equiv.symm_swap, Equiv.swap_apply_left]

/-- **A commitment hides the message.** Whoever sees a commitment under a random key of `kl` bytes, at most a block, tells two messages, also of different lengths, apart with at most
the advantages of the tests of the compression function of C122, which are asked two questions and one. -/
theorem C152_hiding (v : Variant) (m : Mode) (kl N : Nat) (hk : kl ≤ v.block) (hN : v.block + N < 2 ^ 61) (M M' : Bytes) (hM : M.length ≤ N) (hM' : M'.length ≤ N)
    (guess : Bytes → Bool) :
    |prob (fun k : {k : Bytes // k.length = kl} => (Hmac.wrapper v.code m k.1 M).map guess = some true) -
      prob (fun k : {k : Bytes // k.length = kl} => (Hmac.wrapper v.code m k.1 M').map guess = some true)| ≤
    (keyAdvantage v kl (onlooker M guess) + outerAdvantage v (onlooker M guess)) + (keyAdvantage v kl (onlooker M' guess) + outerAdvantage v (onlooker M' guess)) := by
  have key : ∀ x : Bytes, x.length ≤ N → |prob (fun k : {k : Bytes // k.length = kl} => (Hmac.wrapper v.code m k.1 x).map guess = some true) -
      prob (fun G : Keyed N v.size => play (idealWorld v.fipsCompress G) (onlooker x guess) = some true)| ≤
      keyAdvantage v kl (onlooker x guess) + outerAdvantage v (onlooker x guess) := by
    intro x hx
    have h := C122_prf v m kl N hk hN (onlooker x guess) 1 0 ⟨hx, fun _ => trivial⟩ ⟨0, rfl, fun _ => trivial⟩ 1 zero_le_one fun _ _ _ _ _ => by
      unfold innerCollision
      rw [← HmacIdeal.cprob_univ]; exact Switch.cprob_le_one _ _
    simp only [onlooker_play] at h
    refine h.trans (le_of_eq ?_)
    simp
  have h1 := abs_le.mp (key M hM)
  have h2 := abs_le.mp (key M' hM')
  have h3 := ideal_same (n := v.size) v.fipsCompress M M' hM hM' guess
  rw [abs_le]
  constructor <;> linarith [h1.1, h1.2, h2.1, h2.2]

theorem C152_asks (v : Variant) (M : Bytes) (guess : Bytes → Bool) :
    (keyTest v.alg v.fipsCompress v.size (onlooker M guess)).Asks 2 ∧ ∀ Ki, (outerTest v.alg v.fipsCompress v.size Ki (onlooker M guess)).Asks 1 :=
  C122_asks v (onlooker M guess) 1 0 ⟨0, rfl, fun _ => trivial⟩

/-- **A commitment can be opened**: `hmac::verify` accepts the key and the message. -/
theorem C152_opens (v : Variant) (m m' : Mode) (key M c : Bytes) (hk : key.length ≤ v.block) (hN : v.block + M.length < 2 ^ 61) (h : Hmac.wrapper v.code m key M = some c) :
    Hmac.verify v.code m' key M c = some true := by
  have hb : v.block ≤ 128 := by cases v <;> decide
  rw [C06_hmac_rfc2104 v m key M (by omega) hN] at h
  rw [C08_verify_iff v m' key M c (by omega) hN]
  simp [Option.some.inj h]

theorem hmacKey_inj (v : Variant) (key key' : Bytes) (hl : key.length = key'.length) (hk : key.length ≤ v.block)
    (h : Spec.hmacKey v.fips v.block key = Spec.hmacKey v.fips v.block key') : key = key' := by
  unfold Spec.hmacKey at h
  rw [if_neg (by omega), if_neg (by omega)] at h
  exact (List.append_inj h hl).1

/-- **A commitment binds**: whoever opens one value in two ways, with keys of one length, has found a collision of the hash, at the inner or the outer evaluation. -/
theorem C152_binding (v : Variant) (m m' : Mode) (key M key' M' c : Bytes) (hl : key.length = key'.length) (hk : key.length ≤ v.block)
    (hN : v.block + M.length < 2 ^ 61) (hN' : v.block + M'.length < 2 ^ 61) (h : Hmac.verify v.code m key M c = some true) (h' : Hmac.verify v.code m' key' M' c = some true) :
    (key, M) = (key', M') ∨ HashCollision v (innerInput v key M) (innerInput v key' M') ∨ HashCollision v (outerInput v key M) (outerInput v key' M') := by
  have hb : v.block ≤ 128 := by cases v <;> decide
  have e : ∀ (m : Mode) (key M : Bytes), key.length ≤ v.block → v.block + M.length < 2 ^ 61 → Hmac.verify v.code m key M c = some true → Hmac.wrapper v.code m key M = some c := by
    intro m key M hk hN h
    rw [C08_verify_iff v m key M c (by omega) hN, Option.some.injEq, decide_eq_true_eq] at h
    rw [C06_hmac_rfc2104 v m key M (by omega) hN, h]
  rcases C64_hmac_collision v m m' key M key' M' c (by omega) (by omega) hN hN' (e _ _ _ hk hN h) (e _ _ _ (by omega) hN' h') with h | h
  · exact Or.inl (by rw [hmacKey_inj v key key' hl hk h.1, h.2])
  · exact Or.inr h

/-- Keys of different lengths must not be accepted: a key and the same key with a zero byte appended open every commitment. -/
theorem C152_lengths (v : Variant) (m : Mode) (key M : Bytes) (hk : key.length < v.block) (hN : v.block + M.length < 2 ^ 61) :
    ∃ c, Hmac.verify v.code m key M c = some true ∧ Hmac.verify v.code m (key ++ [0]) M c = some true := by
  have hb : v.block ≤ 128 := by cases v <;> decide
  refine ⟨Spec.hmac v.fips v.block key M, ?_, ?_⟩
  · rw [C08_verify_iff v m key M _ (by omega) hN]; simp
  · rw [C08_verify_iff v m (key ++ [0]) M _ (by simp; omega) hN]
    have : Spec.hmacKey v.fips v.block (key ++ [0]) = Spec.hmacKey v.fips v.block key := by
      unfold Spec.hmacKey
      rw [if_neg (by simp; omega), if_neg (by omega), List.append_assoc]
      congr 1
      rw [List.length_append, List.length_singleton, show v.block - key.length = v.block - (key.length + 1) + 1 by omega]
      rfl
    unfold Spec.hmac
    rw [this]
    simp

/-! ## Concrete cases -/

example (guess : Bytes → Bool) :
    |prob (fun k : {k : Bytes // k.length = 32} => (Hmac.wrapper Variant.sha256.code .debug k.1 [1, 2, 3]).map guess = some true) -
      prob (fun k : {k : Bytes // k.length = 32} => (Hmac.wrapper Variant.sha256.code .debug k.1 (zeros 100)).map guess = some true)| ≤
    (keyAdvantage .sha256 32 (onlooker [1, 2, 3] guess) + outerAdvantage .sha256 (onlooker [1, 2, 3] guess)) +
      (keyAdvantage .sha256 32 (onlooker (zeros 100) guess) + outerAdvantage .sha256 (onlooker (zeros 100) guess)) :=
  C152_hiding .sha256 .debug 32 1000 (by decide) (by decide) _ _ (by decide) (by decide) guess

example (m : Mode) : ∃ c, Hmac.wrapper Variant.sha256.code m (zeros 32) [1, 2, 3] = some c ∧ Hmac.verify Variant.sha256.code m (zeros 32) [1, 2, 3] c = some true := by
  have h := C06_hmac_rfc2104 .sha256 m (zeros 32) [1, 2, 3] (by decide) (by decide)
  exact ⟨_, h, C152_opens .sha256 m m _ _ _ (by decide) (by decide) h⟩

end CryptoPure.Props.Commitment
