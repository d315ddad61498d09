import Verif.Props.Collision

/-! # Property C94: SHA-256 and SHA-512 digests can be extended -/

namespace CryptoPure.Props
open CryptoPure.Model CryptoPure.Spec.Sha2

/-- The eight words of a digest that shows the whole chaining value. -/
def octOf {w : Nat} (d : Bytes) : Oct w :=
  ⟨wordOf d 0, wordOf d 1, wordOf d 2, wordOf d 3, wordOf d 4, wordOf d 5, wordOf d 6, wordOf d 7⟩

/-- The FIPS 180-4 padding of a message of `n` bytes. -/
def Variant.pad (v : Variant) (n : Nat) : Bytes := padding v.alg n (8 * n)

/-- What an outsider computes from a digest `d`, the length `n` of the unknown message behind it, and a suffix `x` of
choice: run the hash on `x` from the chaining value that `d` shows, with the length of the longer message in the padding. -/
def Variant.extend (v : Variant) (d : Bytes) (n : Nat) (x : Bytes) : Bytes :=
  digestWith v.alg (octOf d) v.size x (8 * (n + (v.pad n).length + x.length))

theorem octOf_words (k : Nat) (H : Oct (8 * k)) :
    octOf (H.toList.flatMap fun x => toBE k x.toNat) = H := by
  have e : 8 * k / 8 = k := by omega
  have hw : ∀ (x : BitVec (8 * k)) (pre post : Bytes) (i : Nat), pre.length = i * k →
      (wordOf (pre ++ (toBE k x.toNat ++ post)) i : BitVec (8 * k)) = x := by
    intro x pre post i hp
    unfold wordOf
    rw [e, List.drop_left' hp, List.take_left' (toBE_length k _), beNat_toBE]
    have := x.isLt
    rw [Nat.pow_mul] at this
    rw [Nat.mod_eq_of_lt this, BitVec.ofNat_toNat, BitVec.setWidth_eq]
  obtain ⟨a, b, c, d, e, f, g, h⟩ := H
  unfold octOf
  simp only [Oct.toList, List.flatMap_cons, List.flatMap_nil, Oct.mk.injEq]
  refine ⟨hw a [] _ 0 (by simp), ?_, ?_, ?_, ?_, ?_, ?_, ?_⟩
  · exact hw b (toBE k a.toNat) _ 1 (by simp)
  · rw [← List.append_assoc (toBE k a.toNat)]
    exact hw c _ _ 2 (by simp; omega)
  · rw [← List.append_assoc (toBE k a.toNat), ← List.append_assoc (toBE k a.toNat ++ toBE k b.toNat)]
    exact hw d _ _ 3 (by simp; omega)
  · rw [← List.append_assoc (toBE k a.toNat), ← List.append_assoc (toBE k a.toNat ++ toBE k b.toNat),
      ← List.append_assoc (toBE k a.toNat ++ toBE k b.toNat ++ toBE k c.toNat)]
    exact hw e _ _ 4 (by simp; omega)
  · simp only [← List.append_assoc]
    rw [List.append_nil, List.append_assoc _ (toBE k g.toNat), List.append_assoc _ (toBE k f.toNat)]
    exact hw f _ _ 5 (by simp; omega)
  · simp only [← List.append_assoc]
    rw [List.append_nil, List.append_assoc _ (toBE k g.toNat)]
    exact hw g _ _ 6 (by simp; omega)
  · simp only [← List.append_assoc]
    rw [List.append_nil, ← List.append_nil (toBE k h.toNat)]
    exact hw h _ [] 7 (by simp only [List.length_append, toBE_length]; omega)

theorem hash_extend {w : Nat} (A : Alg w) (hb : A.lenBytes + 1 ≤ A.blockBytes) (iv : Oct w) (M x : Bytes) (b b' : Nat) :
    hashBlocks A iv ((M ++ padding A M.length b ++ x) ++ padding A (M ++ padding A M.length b ++ x).length b') =
      hashBlocks A (hashBlocks A iv (M ++ padding A M.length b)) (x ++ padding A x.length b') := by
  obtain ⟨h1, h2⟩ := Proofs.MerkleDamgard.padded_length A hb M b
  have e : padding A (M ++ padding A M.length b ++ x).length b' = padding A x.length b' := by
    unfold padding
    rw [List.length_append (as := M ++ _)]
    have : ((M ++ ([0x80] ++ zeros ((2 * A.blockBytes - A.lenBytes - 1 - M.length % A.blockBytes) % A.blockBytes) ++
      toBE A.lenBytes b)).length + x.length) % A.blockBytes = x.length % A.blockBytes := by
      unfold padding at h1
      rw [Nat.add_mod, h1, Nat.zero_add, Nat.mod_mod]
    rw [this]
  rw [e, List.append_assoc]
  unfold hashBlocks
  rw [chunks_append (by omega) h1, List.foldl_append]

/-- Length extension: from the digest and the length of a message nobody else need know, everybody can compute the digest
of that message followed by its padding and any suffix. -/
theorem C94_length_extension (v : Variant) (hv : v = .sha256 ∨ v = .sha512) (m : Mode) (M x d : Bytes)
    (hl : (M ++ v.pad M.length ++ x).length < 2 ^ 61) (h : Model.Sha2.wrapper v.code m M = some d) :
    Model.Sha2.wrapper v.code m (M ++ v.pad M.length ++ x) = some (v.extend d M.length x) := by
  have hM : M.length < 2 ^ 61 := by simp only [List.length_append] at hl; omega
  rw [C02_sha2_fips v m M hM] at h
  rw [C02_sha2_fips v m _ hl, ← Option.some.inj h, v.fips_eq, v.fips_eq]
  unfold Variant.extend digest digestWith
  have key : octOf (((hashBlocks v.alg v.iv (M ++ padding v.alg M.length (8 * M.length))).toList.flatMap
      fun x => toBE (v.width / 8) x.toNat).take v.size) = hashBlocks v.alg v.iv (M ++ v.pad M.length) := by
    rcases hv with rfl | rfl
    · rw [List.take_of_length_le (by simp [Oct.toList]; decide)]
      exact octOf_words 4 _
    · rw [List.take_of_length_le (by simp [Oct.toList]; decide)]
      exact octOf_words 8 _
  rw [key]
  unfold Variant.pad
  rw [hash_extend v.alg (by cases v <;> decide)]
  simp only [List.length_append]

/-- The classical consequence: a "tag" that is the digest of a secret key followed by the message authenticates nothing.
Who sees one such tag and knows how long the key is gets the tag of a longer message of choice. -/
theorem C94_prefix_mac (v : Variant) (hv : v = .sha256 ∨ v = .sha512) (n : Nat) (msg x t : Bytes)
    (hl : (v.pad (n + msg.length)).length + n + msg.length + x.length < 2 ^ 61) :
    ∃ msg' t' : Bytes, msg.length < msg'.length ∧ msg <+: msg' ∧ x <:+ msg' ∧
      ∀ (m : Mode) (key : Bytes), key.length = n → Model.Sha2.wrapper v.code m (key ++ msg) = some t →
        Model.Sha2.wrapper v.code m (key ++ msg') = some t' := by
  refine ⟨msg ++ v.pad (n + msg.length) ++ x, v.extend t (n + msg.length) x, ?_, ?_, ?_, ?_⟩
  · have : 0 < (v.pad (n + msg.length)).length := by
      unfold Variant.pad padding
      simp only [List.length_append, List.length_singleton]
      omega
    simp only [List.length_append]
    omega
  · exact ⟨v.pad (n + msg.length) ++ x, by simp⟩
  · exact ⟨_, rfl⟩
  · intro m key hk h
    have e : key ++ (msg ++ v.pad (n + msg.length) ++ x) = (key ++ msg) ++ v.pad (key ++ msg).length ++ x := by
      simp [hk]
    rw [e, C94_length_extension v hv m (key ++ msg) x t ?_ h, List.length_append, hk]
    simp only [List.length_append, hk]
    omega

set_option maxRecDepth 100000 in
/-- A concrete case: from the digest of "abc" and the number 3 alone one gets the digest of "abc", its padding and "xyz". -/
example : Model.Sha2.sha256 .debug ([97, 98, 99] ++ Variant.pad .sha256 3 ++ [120, 121, 122]) =
    some (Variant.extend .sha256 (toBE 32 0xba7816bf8f01cfea414140de5dae2223b00361a396177a9cb410ff61f20015ad) 3
      [120, 121, 122]) :=
  C94_length_extension .sha256 (.inl rfl) .debug [97, 98, 99] [120, 121, 122] _ (by decide) (by decide +kernel)

/-! ## Further concrete cases -/

/-- `key ‖ "abc"` under an unknown key of 16 bytes. -/
example (t : Bytes) : ∃ msg' t' : Bytes, 3 < msg'.length ∧ [97, 98, 99] <+: msg' ∧ [120] <:+ msg' ∧
    ∀ (m : Mode) (key : Bytes), key.length = 16 → Model.Sha2.wrapper Variant.sha256.code m (key ++ [97, 98, 99]) = some t →
      Model.Sha2.wrapper Variant.sha256.code m (key ++ msg') = some t' :=
  C94_prefix_mac .sha256 (.inl rfl) 16 [97, 98, 99] [120] t (by decide +kernel)

end CryptoPure.Props
