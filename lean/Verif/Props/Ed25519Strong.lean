import Verif.Props.Ed25519Oracle

/-! # C114: no new signatures, even for messages that were signed

As C103, but the forger may also end with a message that was signed, if its signature is new: it is none of the signatures handed out for that
message. `verify` accepts a signature with a multiple of `L` added to its second half (C45), so signatures that differ in this way are counted
as the same. For signatures whose second half is below `L` this is strong unforgeability in the usual sense. -/

namespace CryptoPure.Props.Ed25519
open Spec.Ed25519 Model.EdWith EdGame CryptoPure.Ed Prog Game

/-- C114, for one key and two random functions (see C102). Let `ε` be the probability that the forger ends with a signature that `verify` accepts and
that is not one of those handed out for its message, up to multiples of `L` in the second half. Then the extractor finds the logarithm of the
public key with a probability `p` such that `(ε - δ)² ≤ q (p + 2^-252)`, unless `ε < δ`. -/
theorem C114_new_signature_one_key (m : Mode) (az pk : Bytes) (A : Point) (haz : az.length = 64) (hpk : genPkWith m az = some pk)
    (hA : Decodes pk A) (N : Nat) (f : Forger) (q s : Nat) (hf : f.Within N q s) (ε p δ : ℚ)
    (hε : ε = prob fun F : Keyed N 64 × Keyed N 64 =>
      winsStrong F.2.ask (signWith m az F.1.ask F.2.ask) (fun M sig => verifyWith m F.2.ask M sig pk) f [])
    (hp : p = (extract m A f).pr fun r => ∃ z, r = some z ∧ smul z B = A)
    (hδ : δ = (s * (q + s + 1) + 1) / 2 ^ 252) (hge : δ ≤ ε) : (ε - δ) ^ 2 ≤ q * (p + 1 / 2 ^ 252) := by
  rw [genPkWith_spec m haz] at hpk
  cases hpk
  obtain rfl := encode_inj hA.1 (decodes_smul _).1 hA.2
  obtain ⟨u, h0, h1, h2⟩ := forger_bound m az haz N f q s hf
  rw [← hε, ← hδ] at h1
  rw [← hp] at h2
  refine le_trans ?_ h2
  exact pow_le_pow_left₀ (by linarith) (by linarith) 2

/-- C114. SHA-512 is replaced by a uniformly random function `H` and the secret key is uniformly random. Take any forger `f` that sees the public key,
calls `H` at most `q` times and the signer at most `s` times. Let `ε` be the probability that it ends with a signature that `verify` accepts and
that is not one of those handed out for its message, up to multiples of `L` in the second half. Let `p` be the probability that the extractor,
which has only the public key and the forger, finds the logarithm of a random public key. Then `(ε - δ)² ≤ q (p + 2^-252)` with
`δ = ((s + 1) (q + s + 1) + 1) 2^-252`, unless `ε < δ`. -/
theorem C114_new_signature_gives_logarithm (m : Mode) (N : Nat) (hN : 32 ≤ N) (f : Bytes → Forger) (q s : Nat)
    (hf : ∀ pk, pk.length = 32 → (f pk).Within N q s) (ε p δ : ℚ)
    (hε : ε = prob fun X : {sk : Bytes // sk.length = 32} × Keyed N 64 => ∃ pk, genPkH m X.2.ask X.1.1 = some pk ∧
      winsStrong X.2.ask (signH m X.2.ask X.1.1) (fun M sig => verifyWith m X.2.ask M sig pk) (f pk) [])
    (hp : p = (logGame m f).pr fun r => ∃ z, r.2 = some z ∧ smul z B = r.1)
    (hδ : δ = ((s + 1) * (q + s + 1) + 1) / 2 ^ 252) (hge : δ ≤ ε) : (ε - δ) ^ 2 ≤ q * (p + 1 / 2 ^ 252) :=
  oracle_strong m N hN f q s hf ε p δ hε hp hδ hge

/-- A signature with `S < L` that was not handed out is new also up to multiples of `L`. -/
theorem winsStrong_of_winsNew {H : Bytes → Bytes} {signer : Bytes → Option Bytes} {verifier : Bytes → Bytes → Option Bool}
    (hs : ∀ M sig, signer M = some sig → sig.length = 64 ∧ leNat (sig.drop 32) < L)
    (hv : ∀ M sig, verifier M sig = some true → sig.length = 64) (f : Forger) (log : List (Bytes × Bytes))
    (hlog : ∀ M sig, (M, sig) ∈ log → sig.length = 64 ∧ leNat (sig.drop 32) < L)
    (h : winsNew H signer verifier f log) : winsStrong H signer verifier f log := by
  induction f generalizing log with
  | stop M sig =>
    obtain ⟨h1, h2, h3⟩ := h
    refine ⟨h1, fun old ho ⟨e1, e2⟩ => h2 ?_⟩
    obtain ⟨l1, l2⟩ := hlog M old ho
    rw [Nat.mod_eq_of_lt l2, Nat.mod_eq_of_lt h3] at e2
    have e3 : old.drop 32 = sig.drop 32 := by
      have a1 := toLE_leNat (old.drop 32)
      have a2 := toLE_leNat (sig.drop 32)
      rw [List.length_drop, l1] at a1
      rw [List.length_drop, hv M sig h1] at a2
      rw [← a1, ← a2, e2]
    have e4 : old = sig := by rw [← List.take_append_drop 32 old, e1, e3, List.take_append_drop]
    rwa [e4] at ho
  | hash x next ih => exact ih _ log hlog h
  | sign M next ih =>
    rw [winsNew] at h
    rw [winsStrong]
    cases hsg : signer M with
    | none => rw [hsg] at h; exact h
    | some sig =>
      rw [hsg] at h
      refine ih sig ((M, sig) :: log) ?_ h
      intro M' sig' hm
      rcases List.mem_cons.mp hm with e | e
      · cases e; exact hs M sig hsg
      · exact hlog M' sig' e

theorem signWith_canonical {m : Mode} {az : Bytes} (haz : az.length = 64) {Hn Hc : Bytes → Bytes} (hn : ∀ x, (Hn x).length = 64)
    (hc : ∀ x, (Hc x).length = 64) {M sig : Bytes} (h : signWith m az Hn Hc M = some sig) : sig.length = 64 ∧ leNat (sig.drop 32) < L := by
  rw [signWith_spec m haz Hn Hc hn hc M] at h
  cases h
  refine ⟨by simp [encode_length], ?_⟩
  rw [List.drop_left' (encode_length _), leNat_canon]
  exact Nat.mod_lt _ L_pos

theorem verifyWith_len {m : Mode} {H : Bytes → Bytes} {M sig pk : Bytes} (h : verifyWith m H M sig pk = some true) (hpk : pk.length = 32) : sig.length = 64 := by
  unfold verifyWith at h
  by_contra hc
  simp [assert, hpk, hc] at h

/-- C114. The same bound for the probability `ε` that the forger ends with a message and a signature with second half below `L` that `verify` accepts,
and that the signer never returned that signature for that message. -/
theorem C114_strongly_unforgeable (m : Mode) (N : Nat) (hN : 32 ≤ N) (f : Bytes → Forger) (q s : Nat)
    (hf : ∀ pk, pk.length = 32 → (f pk).Within N q s) (ε p δ : ℚ)
    (hε : ε = prob fun X : {sk : Bytes // sk.length = 32} × Keyed N 64 => ∃ pk, genPkH m X.2.ask X.1.1 = some pk ∧
      winsNew X.2.ask (signH m X.2.ask X.1.1) (fun M sig => verifyWith m X.2.ask M sig pk) (f pk) [])
    (hp : p = (logGame m f).pr fun r => ∃ z, r.2 = some z ∧ smul z B = r.1)
    (hδ : δ = ((s + 1) * (q + s + 1) + 1) / 2 ^ 252) (hge : δ ≤ ε) : (ε - δ) ^ 2 ≤ q * (p + 1 / 2 ^ 252) := by
  have h1 : ε ≤ prob fun X : {sk : Bytes // sk.length = 32} × Keyed N 64 => ∃ pk, genPkH m X.2.ask X.1.1 = some pk ∧
      winsStrong X.2.ask (signH m X.2.ask X.1.1) (fun M sig => verifyWith m X.2.ask M sig pk) (f pk) [] := by
    rw [hε]
    refine prob_mono fun X ⟨pk, h, hw⟩ => ⟨pk, h, winsStrong_of_winsNew ?_ ?_ (f pk) [] (by simp) hw⟩
    · intro M sig hs
      exact signWith_canonical (ask_length _ _) (fun _ => ask_length _ _) (ask_length _) hs
    · intro M sig hv
      refine verifyWith_len hv ?_
      have h : genPkWith m (X.2.ask X.1.1) = some pk := h
      rw [genPkWith_spec m (ask_length _ _)] at h
      cases h
      exact encode_length _
  exact le_trans (pow_le_pow_left₀ (by linarith) (by linarith) 2) (oracle_strong m N hN f q s hf _ p δ rfl hp hδ (hge.trans h1))

/-! ## Concrete cases -/

/-- A forger that asks for a signature of a message and tries to change it into another one for the same message. -/
def reuser : Bytes → Forger := fun pk => .sign [1] fun sig => .hash (sig.take 32 ++ pk) fun y => .stop [1] (sig.take 32 ++ y.take 32)

example : ∀ pk : Bytes, pk.length = 32 → (reuser pk).Within 65 1 1 :=
  fun pk hpk => ⟨by decide, 0, rfl, fun y hy => ⟨by simp [hy, hpk], 0, rfl, fun y _ => by simp [Forger.Within]⟩⟩

/-- It never wins: `R` determines `S` up to multiples of `L`. (So here `ε` is 0, and `q = s = 1`.) -/
example (m : Mode) (sk : {sk : Bytes // sk.length = 32}) (H : Keyed 65 64) (pk : Bytes) (hpk : genPkH m H.ask sk.1 = some pk) :
    ¬ winsStrong H.ask (signH m H.ask sk.1) (fun M sig => verifyWith m H.ask M sig pk) (reuser pk) [] := by
  have hpk : genPkWith m (H.ask sk.1) = some pk := hpk
  rw [genPkWith_spec m (ask_length _ _)] at hpk
  cases hpk
  obtain ⟨sig, e1, e2, e3⟩ := signWith_some (m := m) (az := H.ask sk.1) (ask_length _ _) (Hn := fun M => H.ask ((H.ask sk.1).drop 32 ++ M)) (Hc := H.ask)
    (fun _ => ask_length _ _) (ask_length _) [1]
  intro h
  unfold reuser at h
  rw [winsStrong, show signH m H.ask sk.1 [1] = some sig from e1] at h
  simp only [winsStrong] at h
  obtain ⟨hv, hn⟩ := h
  have hl : (sig.take 32).length = 32 := by rw [List.length_take, e2]; rfl
  have ht := List.take_left' (l₂ := (H.ask (sig.take 32 ++ encode (smul (scalarOf (H.ask sk.1)) B))).take 32) hl
  refine hn sig (by simp) ⟨ht.symm, ?_⟩
  have h1 := sign_accepts m (ask_length H sk.1) _ _ (fun _ => ask_length _ _) (ask_length _) e1
  refine accepts_same h1 ?_ (ask_length _ _) ht.symm
  unfold accepts
  rw [← hv]
  refine (verifyWith_congr m _ _ [1] _ _ ?_).symm
  rw [ht]
  rfl

/-- The exception is needed: adding `L` to the second half of a signature makes another signature that `verify` accepts. -/
example (m : Mode) (a : Nat) (M R k : Bytes) (S : Nat) (hk : k.length = 64) (hR : R.length = 32) (hS : S + L < 2 ^ 253)
    (h : accepts m (smul a B) M (R ++ toLE 32 S) k) : accepts m (smul a B) M (R ++ toLE 32 (S + L)) k ∧ R ++ toLE 32 (S + L) ≠ R ++ toLE 32 S := by
  have hL : L = 2 ^ 252 + 27742317777372353535851937790883648493 := rfl
  have e1 : leNat (toLE 32 (S + L)) = S + L := by rw [leNat_toLE]; exact Nat.mod_eq_of_lt (by omega)
  have e2 : leNat (toLE 32 S) = S := by rw [leNat_toLE]; exact Nat.mod_eq_of_lt (by omega)
  rw [accepts_iff _ _ _ _ _ hk, List.take_left' hR, List.drop_left' hR, e2] at h
  rw [accepts_iff _ _ _ _ _ hk, List.take_left' hR, List.drop_left' hR, e1]
  refine ⟨⟨by simp [hR], by omega, ?_⟩, fun e => ?_⟩
  · rw [← h.2.2]
    have e3 : (S + L) • G = S • G := smulG_eq_iff.mpr (Nat.add_mod_right S L)
    unfold rPt
    rw [e3]
  · have := congrArg leNat (List.append_cancel_left e)
    rw [e1, e2] at this
    omega

/-- A forger that was given the secret scalar wins (it wins even the game of C103, see there). -/
example (m : Mode) (sk : {sk : Bytes // sk.length = 32}) (H : Keyed 65 64) (pk : Bytes)
    (h : wins H.ask (signH m H.ask sk.1) (fun M sig => verifyWith m H.ask M sig pk) (insider (scalarOf (H.ask sk.1))) []) :
    winsStrong H.ask (signH m H.ask sk.1) (fun M sig => verifyWith m H.ask M sig pk) (insider (scalarOf (H.ask sk.1))) [] :=
  winsStrong_of_wins _ [] h

end CryptoPure.Props.Ed25519
