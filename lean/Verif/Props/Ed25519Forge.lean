import Verif.Proofs.EdSim
import Verif.Proofs.Prob
import Verif.Props.Ed25519

/-! # C102: forging Ed25519 signatures is as hard as discrete logarithms

The hash functions that `sign` and `verify` call are uniformly random functions: `F.1` in place of SHA-512 of `az[32..]` followed by
the message, `F.2` in place of SHA-512 of `R || key || message`. A forger that calls the hash function and the signer, whatever it does,
is turned by `extract` (Verif/Spec/EdGame.lean), which does not know the secret key, into a computation of the discrete logarithm of
the public key. -/

namespace CryptoPure.Props.Ed25519
open Spec.Ed25519 Model.EdWith EdGame CryptoPure.Ed Prog Game

/-! ## The code -/

/-- With SHA-512 as the hash functions, the functions of this property are those of the crate. -/
theorem C102_gen_pk_code (m : Mode) (sk : Bytes) (h : sk.length = 32) :
    Model.Ed25519.genPk m sk = genPkWith m (Spec.Sha2.sha512 sk) := by
  rw [genPk_spec m h, genPkWith_spec m (sha512_length sk)]
  rfl

/-- See `C102_gen_pk_code`. -/
theorem C102_sign_code (m : Mode) (M sk : Bytes) (h : sk.length = 32) (hM : M.length + 64 < 2 ^ 61) :
    Model.Ed25519.sign m M sk =
      signWith m (Spec.Sha2.sha512 sk) (fun M => Spec.Sha2.sha512 ((Spec.Sha2.sha512 sk).drop 32 ++ M)) Spec.Sha2.sha512 M := by
  rw [sign_spec m h hM, signWith_spec m (sha512_length sk) _ _ (fun _ => sha512_length _) sha512_length]
  rfl

/-- See `C102_gen_pk_code`. -/
theorem C102_verify_code (m : Mode) (M sig pk : Bytes) (h : pk.length = 32) (hM : M.length + 64 < 2 ^ 61) :
    Model.Ed25519.verify m M sig pk = verifyWith m Spec.Sha2.sha512 M sig pk := by
  obtain ⟨b, e, hb⟩ := verify_spec m (M := M) (sig := sig) h hM
  obtain ⟨b', e', hb'⟩ := verifyWith_spec m (M := M) (sig := sig) h Spec.Sha2.sha512 sha512_length
  rw [e, e', Bool.eq_iff_iff.mpr (hb.trans hb'.symm)]

/-! ## The reduction -/

attribute [local irreducible] digests L digest scalar

theorem prob_eq_cprob {K : Type} (P : K → Prop) : prob P = Switch.cprob Set.univ P := by
  unfold prob Switch.cprob
  rw [Set.ncard_univ]
  simp

/-- If the double run yields two different forgeries at one point, the extractor has found the logarithm. -/
theorem extract_ge (m : Mode) (a : Nat) (f : Forger) : (fork m (smul a B) f [] []).ex (good (smul a B) []) ≤
    (extract m (smul a B) f).pr fun r => ∃ z, r = some z ∧ smul z B = smul a B := by
  unfold extract pr
  rw [ex_bind]
  refine ex_mono_all (fork_all m _ f [] [] Sound.nil) fun r hr => ?_
  unfold good
  split
  · rename_i hg
    obtain ⟨g, g', rfl, e1, -, e3⟩ := hg
    obtain ⟨a1, l1, -, -⟩ := hr.1 g rfl
    obtain ⟨a2, l2⟩ := hr.2 g' rfl
    rw [ex_done, if_pos ⟨_, rfl, solve_spec a1 a2 l1 l2 e1 e3⟩]
  · exact ex_nonneg fun r => by split <;> simp

/-- A signature of a message that was not signed is none of those that were handed out. -/
theorem winsStrong_of_wins {H : Bytes → Bytes} {signer : Bytes → Option Bytes} {verifier : Bytes → Bytes → Option Bool} (f : Forger)
    (log : List (Bytes × Bytes)) (h : wins H signer verifier f (log.map Prod.fst)) : winsStrong H signer verifier f log := by
  induction f generalizing log with
  | stop M sig =>
    obtain ⟨h1, h2⟩ := h
    exact ⟨h2, fun old ho _ => h1 (List.mem_map.mpr ⟨_, ho, rfl⟩)⟩
  | hash x next ih => exact ih _ log h
  | sign M next ih =>
    rw [wins] at h
    rw [winsStrong]
    cases hs : signer M with
    | none => rw [hs] at h; exact h
    | some sig => rw [hs] at h; exact ih sig ((M, sig) :: log) h

theorem forger_bound (m : Mode) (az : Bytes) (haz : az.length = 64) (N : Nat) (f : Forger) (q s : Nat) (hf : f.Within N q s) :
    ∃ u : ℚ, 0 ≤ u ∧ prob (fun F : Keyed N 64 × Keyed N 64 => winsStrong F.2.ask (signWith m az F.1.ask F.2.ask)
        (fun M sig => verifyWith m F.2.ask M sig (encode (smul (scalarOf az) B))) f []) ≤ u + (s * (q + s + 1) + 1) / 2 ^ 252 ∧
      u ^ 2 ≤ q * ((extract m (smul (scalarOf az) B) f).pr (fun r => ∃ z, r = some z ∧ smul z B = smul (scalarOf az) B) + 1 / 2 ^ 252) := by
  classical
  refine ⟨(run m (smul (scalarOf az) B) f [] []).pr (fun r => r ≠ none), pr_nonneg _ _, ?_, ?_⟩
  · rw [prob_eq_cprob]
    have h0 : Seen m az (Set.univ : Set (Fns N)) [] [] :=
      ⟨Set.univ_nonempty, fun _ _ _ _ _ _ => Set.mem_univ _, fun _ _ _ _ _ _ => Set.mem_univ _, fun _ _ h => by simp at h,
        fun _ _ h => by simp at h, Sound.nil, Sound.nil⟩
    refine (sim_le m haz f Set.univ [] [] [] q s hf h0 (by simp)).trans (le_of_eq ?_)
    unfold slack tiny
    push_cast [List.length_nil]
    ring
  · have h1 := fork_lemma m (smul (scalarOf az) B) N f [] [] q s hf Sound.nil Sound.nil
    have e : (run m (smul (scalarOf az) B) f [] []).ex (hit (smul (scalarOf az) B) []) =
        (run m (smul (scalarOf az) B) f [] []).pr (fun r => r ≠ none) := by
      unfold pr hit
      congr 1; funext r
      cases r <;> simp
    rw [e] at h1
    have h2 := extract_ge m (scalarOf az) f
    have h3 := pr_le_one (run m (smul (scalarOf az) B) f [] []) (fun r => r ≠ none)
    refine h1.trans (mul_le_mul_of_nonneg_left (add_le_add h2 ?_) (by positivity))
    have := tiny_pos
    unfold tiny at *
    nlinarith

/-- C102. Let `az` be the digest of a secret key, `pk` its public key as `gen_pk` computes it and `A` the point that `pk` encodes. Take any
forger that calls the hash function at most `q` times and the signer at most `s` times. Let `ε` be the probability, over the random
functions, that it ends with a signature that `verify` accepts for a message that was not signed. Then the extractor, given `A` and the
forger, finds a `z` with `[z]B = A` with a probability `p` such that `(ε - δ)² ≤ q (p + 2^-252)`, where
`δ = (s (q + s + 1) + 1) 2^-252`, unless `ε < δ`. -/
theorem C102_forgery_gives_logarithm (m : Mode) (az pk : Bytes) (A : Point) (haz : az.length = 64) (hpk : genPkWith m az = some pk)
    (hA : Decodes pk A) (N : Nat) (f : Forger) (q s : Nat) (hf : f.Within N q s) (ε p δ : ℚ)
    (hε : ε = prob fun F : Keyed N 64 × Keyed N 64 =>
      wins F.2.ask (signWith m az F.1.ask F.2.ask) (fun M sig => verifyWith m F.2.ask M sig pk) f [])
    (hp : p = (extract m A f).pr fun r => ∃ z, r = some z ∧ smul z B = A)
    (hδ : δ = (s * (q + s + 1) + 1) / 2 ^ 252) (hge : δ ≤ ε) : (ε - δ) ^ 2 ≤ q * (p + 1 / 2 ^ 252) := by
  rw [genPkWith_spec m haz] at hpk
  cases hpk
  obtain rfl := encode_inj hA.1 (decodes_smul _).1 hA.2
  obtain ⟨u, h0, h1, h2⟩ := forger_bound m az haz N f q s hf
  rw [← hδ] at h1
  rw [← hp] at h2
  refine le_trans ?_ h2
  have h3 := prob_mono (fun (F : Keyed N 64 × Keyed N 64) h => winsStrong_of_wins (H := F.2.ask) (signer := signWith m az F.1.ask F.2.ask)
    (verifier := fun M sig => verifyWith m F.2.ask M sig (encode (smul (scalarOf az) B))) f [] h)
  simp only [List.map_nil] at h3
  rw [← hε] at h3
  exact pow_le_pow_left₀ (by linarith) (by linarith) 2

/-- C102. In particular, if the extractor never finds the logarithm, the forger's probability is at most `δ + √q 2^-126`. -/
theorem C102_no_logarithm (m : Mode) (az pk : Bytes) (A : Point) (haz : az.length = 64) (hpk : genPkWith m az = some pk)
    (hA : Decodes pk A) (N : Nat) (f : Forger) (q s r : Nat) (hf : f.Within N q s) (hr : q ≤ r ^ 2)
    (hp : (extract m A f).pr (fun r => ∃ z, r = some z ∧ smul z B = A) = 0) :
    prob (fun F : Keyed N 64 × Keyed N 64 =>
      wins F.2.ask (signWith m az F.1.ask F.2.ask) (fun M sig => verifyWith m F.2.ask M sig pk) f []) ≤
      (s * (q + s + 1) + 1) / 2 ^ 252 + r / 2 ^ 126 := by
  by_contra hc
  push Not at hc
  have hr0 : (0 : ℚ) ≤ r / 2 ^ 126 := by positivity
  have h := C102_forgery_gives_logarithm m az pk A haz hpk hA N f q s hf _ _ _ rfl rfl rfl (by linarith)
  rw [hp, zero_add] at h
  have h1 : (r / 2 ^ 126 : ℚ) ^ 2 < _ := pow_lt_pow_left₀ (lt_sub_iff_add_lt'.mpr hc) hr0 (by norm_num)
  have h2 : (q : ℚ) * (1 / 2 ^ 252) ≤ (r / 2 ^ 126) ^ 2 := by
    have : (q : ℚ) ≤ r ^ 2 := by exact_mod_cast hr
    rw [div_pow, ← pow_mul, mul_one_div]
    exact div_le_div_of_nonneg_right this (by positivity)
  linarith

theorem fork_blind (m : Mode) (A : Point) (N : Nat) (f : Forger) : ∀ (s : Nat) (T S : Table), f.Within N 0 s → (∀ M sig, S.lookup M = some sig → sig.length = 64) →
    (fork m A f T S).All fun r => r.2 = none := by
  induction f with
  | stop M sig =>
    intro s T S _ _
    rw [fork]
    exact All.bind (All.triv _) fun _ _ => rfl
  | hash x next ih =>
    rintro s T S ⟨-, q, h, -⟩
    omega
  | sign M next ih =>
    rintro s T S ⟨-, s', rfl, h⟩ hS
    rw [fork]
    cases e : S.lookup M with
    | some sig => exact ih sig s' _ _ (h sig (hS M sig e)) hS
    | none =>
      refine All.bind (All.triv _) fun k _ => All.bind (All.triv _) fun t _ => ?_
      split
      · rfl
      · refine ih _ s' _ _ (h _ (simSign_length ..)) fun M' sig' h' => ?_
        rw [List.lookup_cons] at h'
        split at h'
        · cases h'
          exact simSign_length ..
        · exact hS M' sig' h'

/-- C102. **Without the hash function one cannot forge**, however many signatures one sees and whatever one computes: a forger that asks for at most `s` signatures and never calls the hash
function has a chance of at most `(s (s + 1) + 1) / 2^252`. No assumption about logarithms. -/
theorem C102_without_hashing (m : Mode) (az pk : Bytes) (haz : az.length = 64) (hpk : genPkWith m az = some pk) (N : Nat) (f : Forger) (s : Nat) (hf : f.Within N 0 s) :
    prob (fun F : Keyed N 64 × Keyed N 64 =>
      wins F.2.ask (signWith m az F.1.ask F.2.ask) (fun M sig => verifyWith m F.2.ask M sig pk) f []) ≤ (s * (s + 1) + 1) / 2 ^ 252 := by
  obtain ⟨A, hA⟩ : ∃ A, Decodes pk A := by
    rw [genPkWith_spec m haz] at hpk
    cases hpk
    exact ⟨_, decodes_smul _⟩
  have h := C102_no_logarithm m az pk A haz hpk hA N f 0 s 0 hf (by norm_num) (by
    unfold Prog.pr extract
    rw [ex_bind]
    refine (ex_congr_all (h := fun _ => 0) (fork_blind m A N f s [] [] hf (by simp)) fun r hr => ?_).trans (ex_zero _)
    obtain ⟨r1, r2⟩ := r
    subst hr
    cases r1 <;> simp [Prog.ex])
  simpa using h

/-! ## Concrete cases -/

/-- A forger with one hash and one signature: it asks for a signature, hashes something that depends on it, and presents the signature
for another message. -/
def sample : Forger := .sign [1] fun sig => .hash (sig.take 32 ++ [7]) fun y => .stop [2] (sig.take 32 ++ y.take 32)

theorem sample_within : sample.Within 66 1 1 :=
  ⟨by decide, 0, rfl, fun y hy => ⟨by simp [hy], 0, rfl, fun y _ => by simp [Forger.Within]⟩⟩

/-- A forger that presents a signature for another message than the one that was signed. -/
def replay : Forger := .sign [1] fun sig => .stop [2] sig

example (m : Mode) (az pk : Bytes) (haz : az.length = 64) (hpk : genPkWith m az = some pk) :
    prob (fun F : Keyed 65 64 × Keyed 65 64 =>
      wins F.2.ask (signWith m az F.1.ask F.2.ask) (fun M sig => verifyWith m F.2.ask M sig pk) replay []) ≤ 3 / 2 ^ 252 := by
  refine (C102_without_hashing m az pk haz hpk 65 replay 1 ⟨by decide, 0, rfl, fun y _ => by simp [Forger.Within]⟩).trans ?_
  norm_num

/-- The hypotheses hold for every digest of a key. -/
example (m : Mode) (az : Bytes) (haz : az.length = 64) : ∃ pk A, genPkWith m az = some pk ∧ Decodes pk A ∧ sample.Within 66 1 1 :=
  ⟨_, _, genPkWith_spec m haz, decodes_smul _, sample_within⟩

/-- A forger that knows the secret key always succeeds, so the probability `ε` of the theorem is 1 for some forgers: one that computes
the signature with the help of the hash function, without the signer. -/
def insider (a : Nat) : Forger :=
  .hash (encode B ++ encode (smul a B) ++ [1]) fun k => .stop [1] (encode B ++ toLE 32 ((1 + leNat k * a) % L))

example (m : Mode) (az pk : Bytes) (haz : az.length = 64) (hpk : genPkWith m az = some pk) (F : Keyed 65 64 × Keyed 65 64) :
    (insider (scalarOf az)).Within 65 1 0 ∧
    wins F.2.ask (signWith m az F.1.ask F.2.ask) (fun M sig => verifyWith m F.2.ask M sig pk) (insider (scalarOf az)) [] := by
  rw [genPkWith_spec m haz] at hpk
  cases hpk
  refine ⟨⟨by simp [encode_length], 0, rfl, fun y _ => by simp [Forger.Within]⟩, by simp, ?_⟩
  have h1 : (1 : Nat) • G = G := one_smul _ _
  have h2 : smul 1 B = B := by rw [← coe_smulG, h1]; rfl
  generalize hk : F.2.ask (encode B ++ encode (smul (scalarOf az) B) ++ [1]) = k
  have hkl : k.length = 64 := by rw [← hk, ask_length]
  have ht : (encode B ++ toLE 32 ((1 + leNat k * scalarOf az) % L)).take 32 = encode B := List.take_left' (encode_length _)
  have hd : (encode B ++ toLE 32 ((1 + leNat k * scalarOf az) % L)).drop 32 = toLE 32 ((1 + leNat k * scalarOf az) % L) :=
    List.drop_left' (encode_length _)
  refine (verifyWith_congr m F.2.ask (fun _ => k) [1] _ (encode (smul (scalarOf az) B)) (by rw [ht]; exact hk)).trans ?_
  have := (accepts_iff m (scalarOf az) [1] (encode B ++ toLE 32 ((1 + leNat k * scalarOf az) % L)) k hkl).mpr (by
    rw [ht, hd, leNat_canon]
    refine ⟨by simp [encode_length], lt_trans (Nat.mod_lt _ L_pos) (by norm_num [L_val]), ?_⟩
    have := simSign_take (scalarOf az) 1 k
    rw [simSign_eq, List.take_left' (encode_length _), h2] at this
    exact this)
  exact this

/-! ## Further concrete cases -/

example : Model.Ed25519.genPk .debug (zeros 32) = genPkWith .debug (Spec.Sha2.sha512 (zeros 32)) := C102_gen_pk_code .debug _ (by simp [zeros])

example (sk : Bytes) (h : sk.length = 32) : Model.Ed25519.sign .release [1, 2] sk =
    signWith .release (Spec.Sha2.sha512 sk) (fun M => Spec.Sha2.sha512 ((Spec.Sha2.sha512 sk).drop 32 ++ M)) Spec.Sha2.sha512 [1, 2] :=
  C102_sign_code .release _ _ h (by simp)

example (sig pk : Bytes) (h : pk.length = 32) :
    Model.Ed25519.verify .release [1, 2] sig pk = verifyWith .release Spec.Sha2.sha512 [1, 2] sig pk :=
  C102_verify_code .release _ _ _ h (by simp)

/-- For the forger `sample`, which asks one hash and one signature: either its chance is below `4 / 2^252`, or its square is bounded by the chance
of finding the logarithm. -/
example (m : Mode) (az pk : Bytes) (A : Point) (haz : az.length = 64) (hpk : genPkWith m az = some pk) (hA : Decodes pk A) :
    prob (fun F : Keyed 66 64 × Keyed 66 64 =>
      wins F.2.ask (signWith m az F.1.ask F.2.ask) (fun M sig => verifyWith m F.2.ask M sig pk) sample []) < 4 / 2 ^ 252 ∨
    (prob (fun F : Keyed 66 64 × Keyed 66 64 =>
      wins F.2.ask (signWith m az F.1.ask F.2.ask) (fun M sig => verifyWith m F.2.ask M sig pk) sample []) - 4 / 2 ^ 252) ^ 2 ≤
      (extract m A sample).pr (fun r => ∃ z, r = some z ∧ smul z B = A) + 1 / 2 ^ 252 := by
  rcases lt_or_ge (prob fun F : Keyed 66 64 × Keyed 66 64 =>
      wins F.2.ask (signWith m az F.1.ask F.2.ask) (fun M sig => verifyWith m F.2.ask M sig pk) sample []) (4 / 2 ^ 252) with h | h
  · exact .inl h
  · have := C102_forgery_gives_logarithm m az pk A haz hpk hA 66 sample 1 1 sample_within _ _ (4 / 2 ^ 252) rfl rfl (by norm_num) h
    right
    simpa using this

end CryptoPure.Props.Ed25519
