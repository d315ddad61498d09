import Verif.Proofs.Hash

/-! SHA-2 objects on inputs of any total length. -/

namespace CryptoPure.Proofs
open CryptoPure.Model.Sha2

section
variable {w : Nat} {P : Params w} {A : Spec.Sha2.Alg w}

theorem updates_release (hb : 0 < P.blockSize) (iv : Oct w) (parts : List Bytes) :
    ∀ (msg : Bytes) (s : Proc w), ShaRel P iv msg s →
    ∃ s', parts.foldlM (update P .release) s = some s' ∧ ShaRel P iv (msg ++ parts.flatten) s' := by
  induction parts with
  | nil => intro msg s hs; exact ⟨s, rfl, by simpa using hs⟩
  | cons p ps ih =>
    intro msg s hs
    obtain ⟨s1, h1, h2⟩ := shaRel_update hb .release iv msg p s hs (Or.inl rfl)
    obtain ⟨s2, h3, h4⟩ := ih _ s1 h2
    refine ⟨s2, ?_, by simpa using h4⟩
    rw [List.foldlM_cons, h1]; exact h3

theorem updates_debug (hb : 0 < P.blockSize) (iv : Oct w) (parts : List Bytes) :
    ∀ (msg : Bytes) (s : Proc w), ShaRel P iv msg s → msg.length < 2 ^ 64 → (∀ p ∈ parts, p.length < 2 ^ 64) →
    parts.foldlM (update P .debug) s = none ∨
    ∃ s', parts.foldlM (update P .debug) s = some s' ∧ ShaRel P iv (msg ++ parts.flatten) s' ∧
      (msg ++ parts.flatten).length < 2 ^ 64 := by
  induction parts with
  | nil => intro msg s hs hl _; exact Or.inr ⟨s, rfl, by simpa using hs, by simpa using hl⟩
  | cons p ps ih =>
    intro msg s hs hl hp
    have hpl := hp p (by simp)
    rcases Nat.lt_or_ge (msg.length + p.length) (2 ^ 64) with h | h
    · obtain ⟨s1, h1, h2⟩ := shaRel_update hb .debug iv msg p s hs (Or.inr (by omega))
      rw [List.foldlM_cons, h1]
      rcases ih _ s1 h2 (by rw [List.length_append]; omega) (fun q hq => hp q (by simp [hq])) with h3 | ⟨s2, h3, h4, h5⟩
      · exact Or.inl h3
      · exact Or.inr ⟨s2, h3, by simpa using h4, by simpa using h5⟩
    · left
      rw [List.foldlM_cons]
      have : update P .debug s p = none := by
        unfold update
        rw [addC_debug_overflow]
        · rfl
        · rw [hs.2]; simp only [BitVec.toNat_ofNat]; omega
      rw [this]; rfl

/-- Result of feeding `parts` to a fresh object and finishing into the buffer `out`. -/
def streamed (H : HashFunction) (m : Mode) (parts : List Bytes) (out : Bytes) : Option Bytes := do
  let s ← parts.foldlM (H.update m) H.default
  H.writeDigest m s out

theorem streamed_release (M : Sha2.Matches P A) (iv : Oct w) (n bs : Nat) (hd : n % (w / 8) = 0)
    (parts : List Bytes) (out : Bytes) (ho : out.length = n) :
    streamed (implFunction P iv n bs) .release parts out =
      some (Spec.Sha2.digestWith A iv n parts.flatten (8 * parts.flatten.length % 2 ^ 64)) := by
  have hb := M.block
  have hw := M.wpos
  obtain ⟨s, h1, h2⟩ := updates_release (P := P) (by omega) iv parts [] _ ⟨Sha2.absorbs_new iv (by omega), rfl⟩
  unfold streamed
  have h1' : parts.foldlM ((implFunction P iv n bs).update .release) (implFunction P iv n bs).default = some s := h1
  rw [h1']
  show (do assert (n == out.length); procWriteDigest P .release s out.length) = _
  rw [ho]
  simp only [beq_self_eq_true, assert_true, Option.bind_eq_bind, Option.bind_some]
  rw [List.nil_append] at h2
  rw [Sha2.procWriteDigest_spec M .release iv _ s h2.1 _ (mulC_release _ _) n hd, h2.2]
  congr 2
  rw [BitVec.toNat_mul, BitVec.toNat_ofNat]
  change 8 * (parts.flatten.length % 2 ^ 64) % 2 ^ 64 = _
  omega

theorem streamed_debug (M : Sha2.Matches P A) (iv : Oct w) (n bs : Nat)
    (parts : List Bytes) (out : Bytes) (hp : ∀ p ∈ parts, p.length < 2 ^ 64)
    (hl : 2 ^ 61 ≤ parts.flatten.length) :
    streamed (implFunction P iv n bs) .debug parts out = none := by
  have hb := M.block
  have hw := M.wpos
  unfold streamed
  rcases updates_debug (P := P) (by omega) iv parts [] _ ⟨Sha2.absorbs_new iv (by omega), rfl⟩ (by simp) hp with
    h1 | ⟨s, h1, h2, h3⟩
  · have h1' : parts.foldlM ((implFunction P iv n bs).update .debug) (implFunction P iv n bs).default = none := h1
    rw [h1']; rfl
  · have h1' : parts.foldlM ((implFunction P iv n bs).update .debug) (implFunction P iv n bs).default = some s := h1
    rw [h1']
    show (do assert (n == out.length); procWriteDigest P .debug s out.length) = none
    rw [List.nil_append] at h2 h3
    rw [Sha2.procWriteDigest_none .debug s (by
      rw [h2.2, mulC_debug_overflow]
      rw [BitVec.toNat_ofNat]
      change ¬ 8 * (parts.flatten.length % 2 ^ 64) < 2 ^ 64
      omega)]
    cases assert (n == out.length) <;> rfl

end
end CryptoPure.Proofs
