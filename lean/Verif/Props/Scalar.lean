import Verif.Proofs.Sc

/-! # C48: scalar arithmetic modulo the group order -/

namespace CryptoPure.Props.Scalar
open Model Spec.Ed25519

/-- C48, `sc_reduce`: the 64-byte little-endian number is replaced by its remainder modulo `L` (the upper 32 bytes of the
array keep their old contents), in both build modes. -/
theorem C48_reduce (m : Mode) (s : Bytes) (hs : s.length = 64) :
    Sc.reduce m s = some (toLE 32 (leNat s % L) ++ s.drop 32) := by
  have h := leNat_lt s
  rw [hs, show 256 ^ 64 = 2 ^ 512 by rw [show 256 = 2 ^ 8 by rfl, ← Nat.pow_mul]] at h
  rw [Sc.reduce_spec, Nat.mod_eq_of_lt h]

/-- C48, `sc_muladd`: the remainder of `a b + c` modulo `L`, in both build modes. -/
theorem C48_muladd (m : Mode) (a b c : Bytes) (ha : a.length = 32) (hb : b.length = 32) (hc : c.length = 32) :
    Sc.muladd m a b c = some (toLE 32 ((leNat a * leNat b + leNat c) % L)) := by
  have h : ∀ x : Bytes, x.length = 32 → leNat x % 2 ^ 256 = leNat x := fun x hx => by
    have h := leNat_lt x
    rw [hx, show 256 ^ 32 = 2 ^ 256 by norm_num] at h
    exact Nat.mod_eq_of_lt h
  rw [Sc.muladd_spec, h a ha, h b hb, h c hc]

/-- C48, canonical: the 32-byte results denote numbers below `L`. -/
theorem C48_canonical (m : Mode) (s a b c : Bytes) (hs : s.length = 64) (ha : a.length = 32) (hb : b.length = 32)
    (hc : c.length = 32) :
    (∃ r, Sc.reduce m s = some r ∧ r.length = 64 ∧ leNat (r.take 32) = leNat s % L) ∧
    (∃ r, Sc.muladd m a b c = some r ∧ r.length = 32 ∧ leNat r = (leNat a * leNat b + leNat c) % L) := by
  have hL : ∀ n, leNat (toLE 32 (n % L)) = n % L := fun n => by
    rw [leNat_toLE, Nat.mod_eq_of_lt]
    exact lt_trans (Nat.mod_lt _ (by norm_num [L])) (by norm_num [L])
  refine ⟨⟨_, C48_reduce m s hs, ?_, ?_⟩, ⟨_, C48_muladd m a b c ha hb hc, toLE_length _ _, hL _⟩⟩
  · simp [hs]
  · rw [List.take_append_of_le_length (by simp), List.take_of_length_le (by simp)]
    exact hL _

/-- The largest 64-byte number. -/
example : (List.replicate 64 255 : Bytes).length = 64 ∧ L ≤ leNat (List.replicate 64 255) := by decide +kernel

/-- Operands equal to `L - 1`. -/
example : (toLE 32 (L - 1)).length = 32 ∧ leNat (toLE 32 (L - 1)) = L - 1 := by decide +kernel

/-! ## Further concrete cases -/

example : Sc.reduce .debug (List.replicate 64 255) = some (toLE 32 ((2 ^ 512 - 1) % L) ++ List.replicate 32 255) := by
  rw [C48_reduce .debug _ (by decide), show leNat (List.replicate 64 255) = 2 ^ 512 - 1 by decide +kernel]
  rfl

/-- `(L - 1)^2 + (L - 1) = (L - 1) L`. -/
example : Sc.muladd .debug (toLE 32 (L - 1)) (toLE 32 (L - 1)) (toLE 32 (L - 1)) = some (zeros 32) := by
  rw [C48_muladd .debug _ _ _ (by simp) (by simp) (by simp), show leNat (toLE 32 (L - 1)) = L - 1 by decide +kernel,
    show ((L - 1) * (L - 1) + (L - 1)) % L = 0 by decide +kernel]
  decide +kernel

example : ∃ r, Sc.muladd .release (List.replicate 32 255) (List.replicate 32 255) (List.replicate 32 255) = some r ∧ r.length = 32 ∧
    leNat r = (leNat (List.replicate 32 255) * leNat (List.replicate 32 255) + leNat (List.replicate 32 255)) % L :=
  (C48_canonical .release (zeros 64) _ _ _ (by decide) (by decide) (by decide) (by decide)).2

end CryptoPure.Props.Scalar
