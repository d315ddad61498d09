import Verif.Props.Ed25519Forge
import Verif.Proofs.Prob
import Mathlib.Data.Finite.Prod
import Mathlib.Algebra.BigOperators.Field

/-! # C103: forging Ed25519 signatures when SHA-512 is a random oracle

As C102, but with one random function `H` in place of all the calls of SHA-512: the expansion of the secret key, the nonces and
the challenges. The secret key is uniformly random; the forger sees the public key and may call `H` and the signer. -/

namespace CryptoPure.Props.Ed25519
open Spec.Ed25519 Model.EdWith EdGame CryptoPure.Ed Prog Game

/-- `gen_pk` with `H` in place of SHA-512. -/
def genPkH (m : Mode) (H : Bytes → Bytes) (sk : Bytes) : Option Bytes := genPkWith m (H sk)

/-- `sign` with `H` in place of SHA-512. -/
def signH (m : Mode) (H : Bytes → Bytes) (sk M : Bytes) : Option Bytes :=
  signWith m (H sk) (fun M => H ((H sk).drop 32 ++ M)) H M

/-- The public key of a secret key whose digest is `az`, as a point: RFC 8032 section 5.1.5. -/
def keyOf (az : Bytes) : Point := smul (leNat (az.take 32) % 2 ^ 254 / 8 * 8 + 2 ^ 254) B

/-- Make a random public key, and let the extractor look for its logarithm with the help of the forger `f`. -/
noncomputable def logGame (m : Mode) (f : Bytes → Forger) : Prog (Point × Option Nat) :=
  digest.bind fun az => (extract m (keyOf az) (f (encode (keyOf az)))).bind fun r => .done (keyOf az, r)

/-! ## The code -/

/-- With SHA-512 as `H` these are the functions of the crate. -/
theorem C103_code (m : Mode) (sk M : Bytes) (h : sk.length = 32) (hM : M.length + 64 < 2 ^ 61) :
    Model.Ed25519.genPk m sk = genPkH m Spec.Sha2.sha512 sk ∧ Model.Ed25519.sign m M sk = signH m Spec.Sha2.sha512 sk M :=
  ⟨C102_gen_pk_code m sk h, C102_sign_code m M sk h hM⟩

/-! ## Splitting the oracle -/

section Split
variable {N : Nat}

abbrev B32 := {d : Bytes // d.length = 32}
abbrev Dig := {d : Bytes // d.length = 64}

open Classical in
/-- `Fc`, with the value at `sk` replaced by `v` and the values at the strings that begin with `pre` replaced by those of `Fn`. -/
noncomputable def ovr (sk : Bytes) (v : Dig) (pre : Bytes) (Fn Fc : Keyed N 64) : Keyed N 64 := fun x =>
  if x.1 = sk then v else if x.1.take 32 = pre then Fn ⟨x.1.drop 32, by have := x.2; simp; omega⟩ else Fc x

open Classical in
/-- The replaced values of `Fc`. -/
noncomputable def swp (sk pre : Bytes) (Fn Fc : Keyed N 64) : Keyed N 64 := fun M =>
  if h : (pre ++ M.1).length ≤ N ∧ pre ++ M.1 ≠ sk then Fc ⟨pre ++ M.1, h.1⟩ else Fn M

theorem ovr_sk (sk : Bytes) (h : sk.length ≤ N) (v : Dig) (pre : Bytes) (Fn Fc : Keyed N 64) : ovr sk v pre Fn Fc ⟨sk, h⟩ = v := by
  unfold ovr; rw [if_pos rfl]

theorem ovr_ovr (sk : Bytes) (h : sk.length ≤ N) (v : Dig) (pre : Bytes) (hp : pre.length = 32) (Fn Fc : Keyed N 64) :
    ovr sk (Fc ⟨sk, h⟩) pre (swp sk pre Fn Fc) (ovr sk v pre Fn Fc) = Fc := by
  funext x
  obtain ⟨x, hx⟩ := x
  unfold ovr
  simp only
  by_cases h1 : x = sk
  · subst h1; rw [if_pos rfl]
  · rw [if_neg h1, if_neg h1]
    by_cases h2 : x.take 32 = pre
    · rw [if_pos h2]
      have e : pre ++ x.drop 32 = x := by rw [← h2, List.take_append_drop]
      unfold swp
      simp only
      rw [dif_pos ⟨by rw [e]; exact hx, by rw [e]; exact h1⟩]
      congr 2
    · rw [if_neg h2, if_neg h2]

theorem swp_ovr (sk : Bytes) (v : Dig) (pre : Bytes) (hp : pre.length = 32) (Fn Fc : Keyed N 64) :
    swp sk pre (swp sk pre Fn Fc) (ovr sk v pre Fn Fc) = Fn := by
  funext M
  obtain ⟨M, hM⟩ := M
  unfold swp
  simp only
  by_cases h : (pre ++ M).length ≤ N ∧ pre ++ M ≠ sk
  · rw [dif_pos h]
    unfold ovr
    simp only
    rw [if_neg h.2, if_pos (List.take_left' hp)]
    congr 2
    exact List.drop_left' hp
  · rw [dif_neg h, dif_neg h]

/-- A random function, seen as a random digest, a random function for the nonces and one for the rest. -/
noncomputable def split (hN : 32 ≤ N) : (B32 × Dig) × (Keyed N 64 × Keyed N 64) ≃ (B32 × Keyed N 64) × (Keyed N 64 × Dig) where
  toFun X := ((X.1.1, ovr X.1.1.1 X.1.2 (X.1.2.1.drop 32) X.2.1 X.2.2),
    (swp X.1.1.1 (X.1.2.1.drop 32) X.2.1 X.2.2, X.2.2 ⟨X.1.1.1, by rw [X.1.1.2]; exact hN⟩))
  invFun Y := ((Y.1.1, Y.1.2 ⟨Y.1.1.1, by rw [Y.1.1.2]; exact hN⟩),
    (swp Y.1.1.1 ((Y.1.2 ⟨Y.1.1.1, by rw [Y.1.1.2]; exact hN⟩).1.drop 32) Y.2.1 Y.1.2,
     ovr Y.1.1.1 Y.2.2 ((Y.1.2 ⟨Y.1.1.1, by rw [Y.1.1.2]; exact hN⟩).1.drop 32) Y.2.1 Y.1.2))
  left_inv := by
    rintro ⟨⟨sk, az⟩, Fn, Fc⟩
    have hp : (az.1.drop 32).length = 32 := by rw [List.length_drop, az.2]
    simp only [ovr_sk, ovr_ovr _ _ _ _ hp, swp_ovr _ _ _ hp]
  right_inv := by
    rintro ⟨⟨sk, H⟩, Fn, d⟩
    have hp : ((H ⟨sk.1, by rw [sk.2]; exact hN⟩).1.drop 32).length = 32 := by rw [List.length_drop, (H _).2]
    simp only [ovr_sk, ovr_ovr _ _ _ _ hp, swp_ovr _ _ _ hp]

end Split

/-! ## Probabilities on products -/

section Products

theorem prob_eq_le (n : Nat) (x : Bytes) : prob (fun y : {d : Bytes // d.length = n} => x = y.1) ≤ 1 / 256 ^ n := by
  unfold prob
  rw [card_digest]
  push_cast
  refine div_le_div_of_nonneg_right ?_ (by positivity)
  have : ({y : {d : Bytes // d.length = n} | x = y.1} : Set _).ncard ≤ 1 := by
    rw [Set.ncard_le_one_iff]
    intro a b ha hb
    exact Subtype.ext (ha.symm.trans hb)
  exact_mod_cast this

theorem prob_mem_le (n : Nat) (l : List Bytes) : prob (fun y : {d : Bytes // d.length = n} => y.1 ∈ l) ≤ l.length / 256 ^ n := by
  induction l with
  | nil => simp [prob]
  | cons x l ih =>
    have h1 : prob (fun y : {d : Bytes // d.length = n} => y.1 ∈ x :: l) ≤
        prob (fun y : {d : Bytes // d.length = n} => x = y.1) + prob (fun y : {d : Bytes // d.length = n} => y.1 ∈ l) := by
      refine le_trans (prob_mono fun y hy => ?_) (prob_or _ _)
      rcases List.mem_cons.mp hy with h | h
      · exact Or.inl h.symm
      · exact Or.inr h
    have h2 := prob_eq_le n x
    rw [List.length_cons]
    push_cast
    rw [add_div]
    linarith

end Products

/-! ## The bad event -/

/-- What is hashed in the game with two functions, except for nonces. -/
def trace (H : Bytes → Bytes) (signer : Bytes → Option Bytes) (pk : Bytes) : Forger → List Bytes
  | .stop M sig => [sig.take 32 ++ pk ++ M]
  | .hash x next => x :: trace H signer pk (next (H x))
  | .sign M next => match signer M with
    | none => []
    | some sig => (sig.take 32 ++ pk ++ M) :: trace H signer pk (next sig)

theorem trace_length (N : Nat) (H : Bytes → Bytes) (hH : ∀ x, (H x).length = 64) (signer : Bytes → Option Bytes)
    (hs : ∀ M sig, signer M = some sig → sig.length = 64) (pk : Bytes) (f : Forger) (q s : Nat) (hf : f.Within N q s) :
    (trace H signer pk f).length ≤ q + s + 1 := by
  induction f generalizing q s with
  | stop M sig => simp [trace]
  | hash x next ih =>
    obtain ⟨-, q', rfl, hf⟩ := hf
    have := ih _ _ _ (hf _ (hH x))
    rw [trace, List.length_cons]; omega
  | sign M next ih =>
    obtain ⟨-, s', rfl, hf⟩ := hf
    rw [trace]
    split
    · simp
    · rename_i sig hsig
      have := ih _ _ _ (hf _ (hs M sig hsig))
      rw [List.length_cons]; omega

theorem signWith_some {m : Mode} {az : Bytes} (haz : az.length = 64) {Hn Hc : Bytes → Bytes} (hn : ∀ x, (Hn x).length = 64)
    (hc : ∀ x, (Hc x).length = 64) (M : Bytes) : ∃ sig, signWith m az Hn Hc M = some sig ∧ sig.length = 64 ∧
      sig.take 32 = encode (smul (leNat (Hn M)) B) := by
  refine ⟨_, signWith_spec m haz Hn Hc hn hc M, ?_, List.take_left' (encode_length _)⟩
  simp [encode_length]

theorem signWith_half (m : Mode) {az az' : Bytes} (h : az.length = 64) (h' : az'.length = 64) (e : az.take 32 = az'.take 32)
    {Hn Hc : Bytes → Bytes} (hn : ∀ x, (Hn x).length = 64) (hc : ∀ x, (Hc x).length = 64) :
    signWith m az Hn Hc = signWith m az' Hn Hc := by
  funext M
  have : scalarOf az = scalarOf az' := by unfold scalarOf; rw [e]
  rw [signWith_spec m h Hn Hc hn hc, signWith_spec m h' Hn Hc hn hc, this]

theorem ovr_ask {N : Nat} (sk : Bytes) (v : Dig) (pre : Bytes) (Fn Fc : Keyed N 64) {x : Bytes} (h1 : x ≠ sk) (h2 : x.take 32 ≠ pre) :
    (ovr sk v pre Fn Fc).ask x = Fc.ask x := by
  unfold Keyed.ask
  split
  · unfold ovr
    rw [if_neg h1, if_neg h2]
  · rfl

theorem ovr_ask_pre {N : Nat} (sk : Bytes) (v : Dig) (pre : Bytes) (hp : pre.length = 32) (Fn Fc : Keyed N 64) {M : Bytes}
    (h1 : pre ++ M ≠ sk) (hM : M.length + 32 ≤ N) : (ovr sk v pre Fn Fc).ask (pre ++ M) = Fn.ask M := by
  unfold Keyed.ask ovr
  rw [dif_pos (by rw [List.length_append]; omega), dif_pos (by omega)]
  simp only
  rw [if_neg h1, if_pos (List.take_left' hp)]
  congr 3
  exact List.drop_left' hp

/-- Away from the bad event the two games are the same. -/
theorem games_agree (m : Mode) {N : Nat} (sk az : Bytes) (hsk : sk.length = 32) (haz : az.length = 64) (v : Dig)
    (Fn Fc : Keyed N 64) (pk : Bytes) (hpk : pk = encode (smul (scalarOf az) B)) (hne : sk ≠ az.drop 32) (f : Forger) (log : List (Bytes × Bytes)) (q s : Nat)
    (hf : f.Within N q s)
    (hb : ∀ x ∈ trace Fc.ask (signWith m az Fn.ask Fc.ask) pk f, x ≠ sk ∧ x.take 32 ≠ az.drop 32) :
    winsStrong (ovr sk v (az.drop 32) Fn Fc).ask
      (signWith m az (fun M => (ovr sk v (az.drop 32) Fn Fc).ask (az.drop 32 ++ M)) (ovr sk v (az.drop 32) Fn Fc).ask)
      (fun M sig => verifyWith m (ovr sk v (az.drop 32) Fn Fc).ask M sig pk) f log ↔
    winsStrong Fc.ask (signWith m az Fn.ask Fc.ask) (fun M sig => verifyWith m Fc.ask M sig pk) f log := by
  have hp : (az.drop 32).length = 32 := by rw [List.length_drop, haz]
  induction f generalizing log q s with
  | stop M sig =>
    have h1 := hb (sig.take 32 ++ pk ++ M) (by simp [trace])
    rw [winsStrong, winsStrong, verifyWith_congr m _ Fc.ask M sig pk (ovr_ask _ _ _ _ _ h1.1 h1.2)]
  | hash x next ih =>
    obtain ⟨-, q', rfl, hf⟩ := hf
    have h1 := hb x (by simp [trace])
    rw [winsStrong, winsStrong, ovr_ask _ _ _ _ _ h1.1 h1.2]
    exact ih _ log q' s (hf _ (ask_length _ _)) fun z hz => hb z (by rw [trace]; exact List.mem_cons_of_mem _ hz)
  | sign M next ih =>
    obtain ⟨hM, s', rfl, hf⟩ := hf
    obtain ⟨sig, e1, e2, e3⟩ := signWith_some (m := m) haz (ask_length Fn) (ask_length Fc) M
    have h1 := hb (sig.take 32 ++ pk ++ M) (by simp [trace, e1])
    have hn : (ovr sk v (az.drop 32) Fn Fc).ask (az.drop 32 ++ M) = Fn.ask M := by
      refine ovr_ask_pre _ _ _ hp _ _ ?_ (by omega)
      intro e
      have hl := congrArg List.length e
      rw [List.length_append, hp, hsk] at hl
      have : M = [] := List.eq_nil_of_length_eq_zero (by omega)
      rw [this, List.append_nil] at e
      exact hne e.symm
    have e4 : signWith m az (fun M => (ovr sk v (az.drop 32) Fn Fc).ask (az.drop 32 ++ M)) (ovr sk v (az.drop 32) Fn Fc).ask M = some sig := by
      rw [← e1, signWith_spec m haz _ _ (fun _ => ask_length _ _) (ask_length _), signWith_spec m haz _ _ (ask_length _) (ask_length _), hn]
      rw [e3, hpk] at h1
      rw [ovr_ask _ _ _ _ _ h1.1 h1.2]
    rw [winsStrong, winsStrong, e4, e1]
    simp only
    refine ih sig ((M, sig) :: log) q s' (hf _ e2) fun z hz => hb z ?_
    rw [trace, e1]
    exact List.mem_cons_of_mem _ hz

attribute [local irreducible] digests L digest scalar

/-- The first and the second half of a digest. -/
def halves : Dig ≃ B32 × B32 where
  toFun d := (⟨d.1.take 32, by rw [List.length_take, d.2]; rfl⟩, ⟨d.1.drop 32, by rw [List.length_drop, d.2]⟩)
  invFun p := ⟨p.1.1 ++ p.2.1, by rw [List.length_append, p.1.2, p.2.2]⟩
  left_inv d := by simp
  right_inv := by
    rintro ⟨⟨a, ha⟩, ⟨b, hb⟩⟩
    simp only [Prod.mk.injEq, Subtype.mk.injEq]
    exact ⟨List.take_left' ha, List.drop_left' ha⟩

/-- The bad event is rare. -/
theorem bad_le (m : Mode) {N : Nat} (f : Bytes → Forger) (q s : Nat) (hf : ∀ pk, pk.length = 32 → (f pk).Within N q s) :
    prob (fun X : (B32 × Dig) × (Keyed N 64 × Keyed N 64) => X.1.1.1 = X.1.2.1.drop 32 ∨
      ∃ x ∈ trace X.2.2.ask (signWith m X.1.2.1 X.2.1.ask X.2.2.ask) (encode (smul (scalarOf X.1.2.1) B)) (f (encode (smul (scalarOf X.1.2.1) B))),
        x = X.1.1.1 ∨ x.take 32 = X.1.2.1.drop 32) ≤ (q + s + 1) / 2 ^ 252 := by
  -- secret key and second half of the digest first
  let e : (B32 × Dig) × (Keyed N 64 × Keyed N 64) ≃ (B32 × B32) × (B32 × (Keyed N 64 × Keyed N 64)) :=
    { toFun := fun X => ((X.1.1, (halves X.1.2).2), ((halves X.1.2).1, X.2))
      invFun := fun Y => ((Y.1.1, halves.symm (Y.2.1, Y.1.2)), Y.2.2)
      left_inv := fun X => by simp
      right_inv := fun Y => by simp }
  rw [← prob_equiv e.symm]
  refine prob_prod_le _ _ fun b => ?_
  obtain ⟨a1, Fn, Fc⟩ := b
  -- what is hashed does not depend on them
  have haz : ∀ b2 : B32, (a1.1 ++ b2.1).length = 64 := fun b2 => by rw [List.length_append, a1.2, b2.2]
  have ht : ∀ b2 : B32, (a1.1 ++ b2.1).take 32 = a1.1 := fun b2 => List.take_left' a1.2
  have hd : ∀ b2 : B32, (a1.1 ++ b2.1).drop 32 = b2.1 := fun b2 => List.drop_left' a1.2
  let z : B32 := ⟨zeros 32, by simp⟩
  let pk := encode (smul (scalarOf (a1.1 ++ z.1)) B)
  have hpk : ∀ b2 : B32, encode (smul (scalarOf (a1.1 ++ b2.1)) B) = pk := by
    intro b2
    show _ = encode (smul (scalarOf (a1.1 ++ z.1)) B)
    unfold scalarOf
    rw [ht, ht]
  let l := trace Fc.ask (signWith m (a1.1 ++ z.1) Fn.ask Fc.ask) pk (f pk)
  have hl : l.length ≤ q + s + 1 := by
    refine trace_length N _ (ask_length _) _ ?_ _ _ q s (hf pk (encode_length _))
    intro M sig h
    obtain ⟨sig', e1, e2, -⟩ := signWith_some (m := m) (haz z) (ask_length Fn) (ask_length Fc) M
    rw [e1] at h; cases h; exact e2
  refine le_trans (prob_mono (Q := fun Y : B32 × B32 => (Y.1.1 ∈ l ∨ Y.1.1 = Y.2.1) ∨ Y.2.1 ∈ l.map (List.take 32)) ?_) ?_
  · rintro ⟨sk, b2⟩ h
    have h : sk.1 = (a1.1 ++ b2.1).drop 32 ∨ ∃ x ∈ trace Fc.ask (signWith m (a1.1 ++ b2.1) Fn.ask Fc.ask)
        (encode (smul (scalarOf (a1.1 ++ b2.1)) B)) (f (encode (smul (scalarOf (a1.1 ++ b2.1)) B))), x = sk.1 ∨ x.take 32 = (a1.1 ++ b2.1).drop 32 := h
    rw [hd, hpk, signWith_half m (haz b2) (haz z) ((ht b2).trans (ht z).symm) (ask_length _) (ask_length _)] at h
    rcases h with h | ⟨x, hx, h | h⟩
    · exact Or.inl (Or.inr h)
    · exact Or.inl (Or.inl (h ▸ hx))
    · exact Or.inr (List.mem_map.mpr ⟨x, hx, h⟩)
  · have h1 : prob (fun Y : B32 × B32 => Y.1.1 ∈ l ∨ Y.1.1 = Y.2.1) ≤ (l.length + 1) / 256 ^ 32 := by
      refine prob_prod_le _ _ fun b2 => ?_
      have := prob_mem_le 32 (b2.1 :: l)
      rw [List.length_cons] at this
      push_cast at this
      refine le_trans (prob_mono fun y hy => ?_) this
      rcases hy with h | h
      · exact List.mem_cons_of_mem _ h
      · exact List.mem_cons.mpr (Or.inl h)
    have h2 : prob (fun Y : B32 × B32 => Y.2.1 ∈ l.map (List.take 32)) ≤ l.length / 256 ^ 32 := by
      rw [← prob_equiv (Equiv.prodComm B32 B32)]
      refine prob_prod_le _ _ fun b2 => ?_
      have := prob_mem_le 32 (l.map (List.take 32))
      rw [List.length_map] at this
      exact this
    refine (prob_or _ _).trans ((add_le_add h1 h2).trans ?_)
    rw [← add_div, div_le_div_iff₀ (by positivity) (by positivity)]
    have : (l.length : ℚ) ≤ q + s + 1 := by exact_mod_cast hl
    have hq : (0 : ℚ) ≤ q + s := by positivity
    nlinarith

theorem sum_dig (g : Bytes → ℚ) [Fintype Dig] : (∑ d : Dig, g d.1) / (Fintype.card Dig : ℚ) = digest.ex g := by
  have hc : Fintype.card Dig = digests := by
    rw [← Nat.card_eq_fintype_card, card_digest]
    unfold digests; rfl
  rw [digest_ex, hc]
  congr 1
  refine (Fintype.sum_bijective (fun i : Fin digests => (⟨toLE 64 i, by simp⟩ : Dig)) ⟨?_, ?_⟩ _ _ fun i => rfl).symm
  · intro i j h
    have := congrArg (fun d : Dig => leNat d.1) h
    simp only [leNat_digest] at this
    exact Fin.ext this
  · rintro ⟨d, hd⟩
    refine ⟨⟨leNat d, ?_⟩, Subtype.ext (toLE_digest hd)⟩
    have := leNat_lt d
    rw [hd] at this
    unfold digests
    exact this

/-- The reduction, for forgers that end with a new signature. -/
theorem oracle_strong (m : Mode) (N : Nat) (hN : 32 ≤ N) (f : Bytes → Forger) (q s : Nat)
    (hf : ∀ pk, pk.length = 32 → (f pk).Within N q s) (ε p δ : ℚ)
    (hε : ε = prob fun X : {sk : Bytes // sk.length = 32} × Keyed N 64 => ∃ pk, genPkH m X.2.ask X.1.1 = some pk ∧
      winsStrong X.2.ask (signH m X.2.ask X.1.1) (fun M sig => verifyWith m X.2.ask M sig pk) (f pk) [])
    (hp : p = (logGame m f).pr fun r => ∃ z, r.2 = some z ∧ smul z B = r.1)
    (hδ : δ = ((s + 1) * (q + s + 1) + 1) / 2 ^ 252) (hge : δ ≤ ε) : (ε - δ) ^ 2 ≤ q * (p + 1 / 2 ^ 252) := by
  classical
  have : Fintype Dig := Fintype.ofFinite _
  -- one key
  let u : Bytes → ℚ := fun az => if h : az.length = 64 then
    (forger_bound m az h N (f (encode (smul (scalarOf az) B))) q s (hf _ (encode_length _))).choose else 0
  let W : (B32 × Dig) × (Keyed N 64 × Keyed N 64) → Prop := fun X => winsStrong X.2.2.ask (signWith m X.1.2.1 X.2.1.ask X.2.2.ask)
    (fun M sig => verifyWith m X.2.2.ask M sig (encode (smul (scalarOf X.1.2.1) B))) (f (encode (smul (scalarOf X.1.2.1) B))) []
  have h1 : ε ≤ prob W + (q + s + 1) / 2 ^ 252 := by
    have e1 : ε = prob fun Y : (B32 × Keyed N 64) × (Keyed N 64 × Dig) => ∃ pk, genPkH m Y.1.2.ask Y.1.1.1 = some pk ∧
        winsStrong Y.1.2.ask (signH m Y.1.2.ask Y.1.1.1) (fun M sig => verifyWith m Y.1.2.ask M sig pk) (f pk) [] := by
      rw [hε]
      exact (prob_fst (β := Keyed N 64 × Dig) (fun X : B32 × Keyed N 64 => ∃ pk, genPkH m X.2.ask X.1.1 = some pk ∧
        winsStrong X.2.ask (signH m X.2.ask X.1.1) (fun M sig => verifyWith m X.2.ask M sig pk) (f pk) [])).symm
    rw [e1, ← prob_equiv (split hN)]
    refine le_trans (prob_mono fun X h => ?_) ((prob_or W _).trans (add_le_add le_rfl (bad_le m f q s hf)))
    obtain ⟨⟨sk, az⟩, Fn, Fc⟩ := X
    by_cases hb : sk.1 = az.1.drop 32 ∨ ∃ x ∈ trace Fc.ask (signWith m az.1 Fn.ask Fc.ask) (encode (smul (scalarOf az.1) B))
        (f (encode (smul (scalarOf az.1) B))), x = sk.1 ∨ x.take 32 = az.1.drop 32
    · exact Or.inr hb
    · left
      push Not at hb
      obtain ⟨pk, hk, hw⟩ := h
      have hH : (ovr sk.1 az (az.1.drop 32) Fn Fc).ask sk.1 = az.1 := by
        unfold Keyed.ask
        rw [dif_pos (by rw [sk.2]; exact hN), ovr_sk]
      have hk : genPkWith m ((ovr sk.1 az (az.1.drop 32) Fn Fc).ask sk.1) = some pk := hk
      rw [hH, genPkWith_spec m az.2] at hk
      cases hk
      have hw : winsStrong (ovr sk.1 az (az.1.drop 32) Fn Fc).ask (signH m (ovr sk.1 az (az.1.drop 32) Fn Fc).ask sk.1)
        (fun M sig => verifyWith m (ovr sk.1 az (az.1.drop 32) Fn Fc).ask M sig (encode (smul (scalarOf az.1) B)))
          (f (encode (smul (scalarOf az.1) B))) [] := hw
      rw [show signH m (ovr sk.1 az (az.1.drop 32) Fn Fc).ask sk.1 = signWith m az.1
        (fun M => (ovr sk.1 az (az.1.drop 32) Fn Fc).ask (az.1.drop 32 ++ M)) (ovr sk.1 az (az.1.drop 32) Fn Fc).ask from by
          funext M; unfold signH; rw [hH]] at hw
      exact (games_agree m sk.1 az.1 sk.2 az.2 az Fn Fc _ rfl hb.1 _ [] q s (hf _ (encode_length _)) hb.2).mp hw
  have h2 : prob W = digest.ex fun az => prob fun F : Keyed N 64 × Keyed N 64 => winsStrong F.2.ask (signWith m az F.1.ask F.2.ask)
      (fun M sig => verifyWith m F.2.ask M sig (encode (smul (scalarOf az) B))) (f (encode (smul (scalarOf az) B))) [] := by
    rw [← sum_dig]
    let e : (B32 × Dig) × (Keyed N 64 × Keyed N 64) ≃ (B32 × (Keyed N 64 × Keyed N 64)) × Dig :=
      { toFun := fun X => ((X.1.1, X.2), X.1.2), invFun := fun Y => ((Y.1.1, Y.2), Y.1.2), left_inv := fun X => rfl, right_inv := fun Y => rfl }
    rw [← prob_equiv e.symm, prob_prod]
    congr 1
    refine Finset.sum_congr rfl fun d _ => ?_
    rw [← prob_equiv (Equiv.prodComm (Keyed N 64 × Keyed N 64) B32)]
    exact prob_fst (β := B32) (fun F : Keyed N 64 × Keyed N 64 => winsStrong F.2.ask (signWith m d.1 F.1.ask F.2.ask)
      (fun M sig => verifyWith m F.2.ask M sig (encode (smul (scalarOf d.1) B))) (f (encode (smul (scalarOf d.1) B))) [])
  have hu : ∀ az, az.length = 64 → 0 ≤ u az ∧ (prob fun F : Keyed N 64 × Keyed N 64 => winsStrong F.2.ask (signWith m az F.1.ask F.2.ask)
      (fun M sig => verifyWith m F.2.ask M sig (encode (smul (scalarOf az) B))) (f (encode (smul (scalarOf az) B))) []) ≤
        u az + (s * (q + s + 1) + 1) / 2 ^ 252 ∧
      (u az) ^ 2 ≤ q * ((extract m (keyOf az) (f (encode (keyOf az)))).pr (fun r => ∃ z, r = some z ∧ smul z B = keyOf az) + 1 / 2 ^ 252) := by
    intro az h
    have e : u az = (forger_bound m az h N (f (encode (smul (scalarOf az) B))) q s (hf _ (encode_length _))).choose := dif_pos h
    rw [e]
    exact (forger_bound m az h N (f (encode (smul (scalarOf az) B))) q s (hf _ (encode_length _))).choose_spec
  have h3 : prob W ≤ digest.ex u + (s * (q + s + 1) + 1) / 2 ^ 252 := by
    rw [h2]
    refine (ex_mono_all digest_all fun az haz => (hu az haz).2.1).trans ?_
    rw [ex_add, ex_const digest_proper]
  have h4 : (digest.ex u) ^ 2 ≤ q * (p + 1 / 2 ^ 252) := by
    refine (ex_sq_le _ _).trans ((ex_mono_all digest_all fun az haz => (hu az haz).2.2).trans ?_)
    rw [ex_mul, ex_add, ex_const digest_proper]
    refine mul_le_mul_of_nonneg_left (add_le_add (le_of_eq ?_) le_rfl) (by positivity)
    rw [hp]
    unfold logGame pr
    rw [ex_bind]
    congr 1; funext az
    rw [ex_bind]
    rfl
  refine le_trans (pow_le_pow_left₀ (by linarith) ?_ 2) h4
  rw [hδ]
  have : ((s : ℚ) + 1) * (q + s + 1) + 1 = (s * (q + s + 1) + 1) + (q + s + 1) := by ring
  rw [this, add_div]
  linarith

/-- C103. SHA-512 is replaced by a uniformly random function `H` and the secret key is uniformly random. Take any forger `f` that sees the
public key, calls `H` at most `q` times and the signer at most `s` times. Let `ε` be the probability that it ends with a signature that
`verify` accepts for a message that was not signed. Let `p` be the probability that the extractor, which has only the public key and
the forger, finds the logarithm of a random public key. Then `(ε - δ)² ≤ q (p + 2^-252)` with `δ = ((s + 1) (q + s + 1) + 1) 2^-252`,
unless `ε < δ`. -/
theorem C103_forgery_gives_logarithm (m : Mode) (N : Nat) (hN : 32 ≤ N) (f : Bytes → Forger) (q s : Nat)
    (hf : ∀ pk, pk.length = 32 → (f pk).Within N q s) (ε p δ : ℚ)
    (hε : ε = prob fun X : {sk : Bytes // sk.length = 32} × Keyed N 64 => ∃ pk, genPkH m X.2.ask X.1.1 = some pk ∧
      wins X.2.ask (signH m X.2.ask X.1.1) (fun M sig => verifyWith m X.2.ask M sig pk) (f pk) [])
    (hp : p = (logGame m f).pr fun r => ∃ z, r.2 = some z ∧ smul z B = r.1)
    (hδ : δ = ((s + 1) * (q + s + 1) + 1) / 2 ^ 252) (hge : δ ≤ ε) : (ε - δ) ^ 2 ≤ q * (p + 1 / 2 ^ 252) := by
  have h1 : ε ≤ prob fun X : {sk : Bytes // sk.length = 32} × Keyed N 64 => ∃ pk, genPkH m X.2.ask X.1.1 = some pk ∧
      winsStrong X.2.ask (signH m X.2.ask X.1.1) (fun M sig => verifyWith m X.2.ask M sig pk) (f pk) [] := by
    rw [hε]
    exact prob_mono fun X ⟨pk, h, hw⟩ => ⟨pk, h, winsStrong_of_wins (f pk) [] hw⟩
  refine le_trans (pow_le_pow_left₀ (by linarith) (by linarith) 2) (oracle_strong m N hN f q s hf _ p δ rfl hp hδ (hge.trans h1))

/-! ## Concrete cases -/

/-- The forger of C102, for any public key. -/
example : ∀ pk : Bytes, pk.length = 32 → ((fun _ => sample) pk : Forger).Within 66 1 1 := fun _ _ => sample_within

/-- There are games that the forger wins: one that is handed the digest of the key. -/
example (m : Mode) (sk : {sk : Bytes // sk.length = 32}) (H : Keyed 65 64) : ∃ pk, genPkH m H.ask sk.1 = some pk ∧
    wins H.ask (signH m H.ask sk.1) (fun M sig => verifyWith m H.ask M sig pk) (insider (scalarOf (H.ask sk.1))) [] :=
  ⟨_, genPkWith_spec m (ask_length _ _), by simp, by
    have h1 : (1 : Nat) • G = G := one_smul _ _
    have h2 : smul 1 B = B := by rw [← coe_smulG, h1]; rfl
    generalize scalarOf (H.ask sk.1) = a
    generalize hk : H.ask (encode B ++ encode (smul a B) ++ [1]) = k
    have hkl : k.length = 64 := by rw [← hk, ask_length]
    have ht : (encode B ++ toLE 32 ((1 + leNat k * a) % L)).take 32 = encode B := List.take_left' (encode_length _)
    have hd : (encode B ++ toLE 32 ((1 + leNat k * a) % L)).drop 32 = toLE 32 ((1 + leNat k * a) % L) := List.drop_left' (encode_length _)
    refine (verifyWith_congr m H.ask (fun _ => k) [1] _ (encode (smul a B)) (by rw [ht]; exact hk)).trans ?_
    exact (accepts_iff m a [1] (encode B ++ toLE 32 ((1 + leNat k * a) % L)) k hkl).mpr (by
      rw [ht, hd, leNat_canon]
      refine ⟨by simp [encode_length], lt_trans (Nat.mod_lt _ L_pos) (by norm_num [L_val]), ?_⟩
      have := simSign_take a 1 k
      rw [simSign_eq, List.take_left' (encode_length _), h2] at this
      exact this)⟩

end CryptoPure.Props.Ed25519
