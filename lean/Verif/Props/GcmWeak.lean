import Verif.Props.UserCipher

/-! # Property C97: GCM under weak hash keys

The hash key is the cipher's value on the zero block; the code never inspects it. -/

namespace CryptoPure.Props
open CryptoPure.Model CryptoPure.Model.Aes
open Spec.GF128 (elt K)
open Spec.Gcm (bits bytes ghash authBlocks)

/-- Whatever was encrypted, what is accepted under the same nonce depends on the hash only: an attempt with the same hash
is accepted with the same tag. -/
theorem accepts_of_ghash (E : BlockCipher) (m m' : Mode) (st : E.State) (hE : MapsBlocks E st)
    (input nonce data output ct t : Bytes)
    (h : Model.Gcm.encrypt E m st input nonce data output = some (ct, t)) (data' ct' buf : Bytes)
    (hd : data'.length < 2 ^ 61) (hc : ct'.length < 2 ^ 36 - 32) (hb : buf.length = ct'.length)
    (hm : Countable m' ct'.length)
    (hg : ghash (bits (E.permute st (zeros 16))) (authBlocks data ct) =
      ghash (bits (E.permute st (zeros 16))) (authBlocks data' ct')) :
    ∃ out, Model.Gcm.decrypt E m' st ct' nonce data' t buf = some (out, true) := by
  have hn : nonce.length = 12 := by
    by_contra hn
    rw [(C96_encrypt E m st hE input nonce data output).2 (fun hp => hn hp.1.1)] at h
    cases h
  have ht := (C19_encrypt_any_cipher E m st hE _ _ _ _ _ _ h).2
  refine ⟨_, ((C96_decrypt E m' st hE ct' nonce data' t buf).2.2 ⟨hn, hb.symm, hc, hd⟩ ?_).1 hm⟩
  rw [ht, Spec.Gcm.tag, Spec.Gcm.tag, hg]

theorem ghash_zero (bs : List Bytes) : ghash 0#128 bs = 0#128 := by
  apply Proofs.GHash.elt_injective
  rw [← Proofs.GHashUniversal.eval_poly, Proofs.GHash.elt_zero, ← Polynomial.coeff_zero_eq_eval_zero,
    Proofs.GHashUniversal.coeff_zero_poly]

/-- If the cipher sends the zero block to itself, one observed encryption lets anybody forge: its tag is accepted, under its
nonce, with every other data and every other ciphertext. -/
theorem C97_zero_hash_key (E : BlockCipher) (m m' : Mode) (st : E.State) (hE : MapsBlocks E st)
    (h0 : E.permute st (zeros 16) = zeros 16) (input nonce data output ct t : Bytes)
    (h : Model.Gcm.encrypt E m st input nonce data output = some (ct, t)) (data' ct' buf : Bytes)
    (hd : data'.length < 2 ^ 61) (hc : ct'.length < 2 ^ 36 - 32) (hb : buf.length = ct'.length)
    (hm : Countable m' ct'.length) :
    ∃ out, Model.Gcm.decrypt E m' st ct' nonce data' t buf = some (out, true) := by
  refine accepts_of_ghash E m m' st hE input nonce data output ct t h data' ct' buf hd hc hb hm ?_
  rw [h0, show bits (zeros 16) = 0#128 by decide +kernel, ghash_zero, ghash_zero]

/-! ## Hash keys of small order -/

theorem elt_foldl (h : BitVec 128) (L : List Bytes) (z : BitVec 128) :
    elt (L.foldl (fun y x => Spec.Gcm.mul (y ^^^ bits x) h) z) = elt z * elt h ^ L.length + elt (ghash h L) := by
  induction L using List.reverseRecOn with
  | nil => simp [ghash, Proofs.GHash.elt_zero]
  | append_singleton L b ih =>
    unfold ghash at ih ⊢
    rw [List.foldl_append, List.foldl_append, List.foldl_cons, List.foldl_nil, List.foldl_cons, List.foldl_nil,
      Proofs.GHash.elt_mul, Proofs.GHash.elt_xor, Proofs.GHash.elt_mul, Proofs.GHash.elt_xor, ih, List.length_append]
    simp only [List.length_cons, List.length_nil]
    ring

theorem ghash_swap (h : BitVec 128) (A Q S : List Bytes) (x y : Bytes) (hk : elt h ^ (Q.length + 1) = 1) :
    ghash h (A ++ x :: (Q ++ y :: S)) = ghash h (A ++ y :: (Q ++ x :: S)) := by
  apply Proofs.GHash.elt_injective
  have key : ∀ x y : Bytes, elt (ghash h (A ++ x :: (Q ++ y :: S))) =
      ((elt (ghash h A) + elt (bits x)) + elt (ghash h Q) + elt (bits y)) * elt h * elt h ^ S.length + elt (ghash h S) := by
    intro x y
    rw [show ghash h (A ++ x :: (Q ++ y :: S)) =
      S.foldl (fun y x => Spec.Gcm.mul (y ^^^ bits x) h) (Spec.Gcm.mul
        (Q.foldl (fun y x => Spec.Gcm.mul (y ^^^ bits x) h) (Spec.Gcm.mul (ghash h A ^^^ bits x) h) ^^^ bits y) h) by
      simp [ghash, List.foldl_append]]
    rw [elt_foldl, Proofs.GHash.elt_mul, Proofs.GHash.elt_xor, elt_foldl, Proofs.GHash.elt_mul, Proofs.GHash.elt_xor]
    rw [pow_succ] at hk
    linear_combination (elt (ghash h A) + elt (bits x)) * elt h * elt h ^ S.length * hk
  rw [key, key]
  ring

/-- The blocks of data and ciphertext with a ciphertext cut at block boundaries around two blocks. -/
theorem authBlocks_cut (a p x q y s : Bytes) (hp : p.length % 16 = 0) (hx : x.length = 16) (hq : q.length % 16 = 0)
    (hy : y.length = 16) :
    authBlocks a (p ++ x ++ q ++ y ++ s) =
      (chunks 16 (Spec.Gcm.pad16 a) ++ chunks 16 p) ++ x :: (chunks 16 q ++ y :: (chunks 16 (Spec.Gcm.pad16 s) ++
        [toBE 8 (8 * a.length) ++ toBE 8 (8 * (p.length + 16 + q.length + 16 + s.length))])) := by
  have hpad : Spec.Gcm.pad16 (p ++ x ++ q ++ y ++ s) = p ++ x ++ q ++ y ++ Spec.Gcm.pad16 s := by
    unfold Spec.Gcm.pad16
    rw [show (p ++ x ++ q ++ y ++ s).length % 16 = s.length % 16 by simp only [List.length_append, hx, hy]; omega]
    simp [List.append_assoc]
  rw [Proofs.GHash.authBlocks_eq, hpad, chunks_append (x := p ++ x ++ q ++ y) (by omega)
      (by simp only [List.length_append, hx, hy]; omega),
    chunks_append (x := p ++ x ++ q) (by omega) (by simp only [List.length_append, hx]; omega),
    chunks_append (x := p ++ x) (by omega) (by simp only [List.length_append, hx]; omega),
    chunks_append (x := p) (by omega) hp,
    chunks_singleton (l := x) (by intro h; simp [h] at hx) (by omega),
    chunks_singleton (l := y) (by intro h; simp [h] at hy) (by omega)]
  simp only [List.length_append, hx, hy, List.append_assoc, List.cons_append, List.nil_append, Nat.add_assoc]

/-- If the hash key, an element of GF(2^128), has a power `1` at exponent `k`, then exchanging two whole ciphertext blocks at
distance `k` goes unnoticed: the changed ciphertext is accepted with the same tag. -/
theorem C97_small_order_hash_key (E : BlockCipher) (m m' : Mode) (st : E.State) (hE : MapsBlocks E st) (k : Nat)
    (hk : elt (bits (E.permute st (zeros 16))) ^ k = 1) (input nonce data output p x q y s t : Bytes)
    (hp : p.length % 16 = 0) (hx : x.length = 16) (hy : y.length = 16) (hq : x.length + q.length = 16 * k)
    (h : Model.Gcm.encrypt E m st input nonce data output = some (p ++ x ++ q ++ y ++ s, t))
    (buf : Bytes) (hb : buf.length = input.length) (hm : Countable m' input.length) :
    ∃ out, Model.Gcm.decrypt E m' st (p ++ y ++ q ++ x ++ s) nonce data t buf = some (out, true) := by
  have hc : GcmPermitted input nonce data output := by
    by_contra hc
    rw [(C96_encrypt E m st hE input nonce data output).2 (fun h => hc h.1)] at h
    cases h
  have hl := (C96_roundtrip E m m' st hE input nonce data output _ t h buf hb hm).1
  have hl' : (p ++ y ++ q ++ x ++ s).length = input.length := by
    rw [← hl]; simp only [List.length_append, hx, hy]
  refine accepts_of_ghash E m m' st hE input nonce data output _ t h data _ buf hc.2.2.2 (by rw [hl']; exact hc.2.2.1)
    (by rw [hl', hb]) (by rw [hl']; exact hm) ?_
  have hq16 : q.length % 16 = 0 := by omega
  rw [authBlocks_cut data p x q y s hp hx hq16 hy, authBlocks_cut data p y q x s hp hy hq16 hx]
  refine ghash_swap _ _ _ _ x y ?_
  rw [chunks_length (by omega), show (q.length + 16 - 1) / 16 + 1 = k by omega]
  exact hk

/-- A cipher that sends the zero block to the block `1000…0`, which stands for the element 1. -/
def oneCipher : BlockCipher where
  State := Unit
  new _ := some ()
  permute _ x := if x = zeros 16 then 0x80 :: zeros 15 else x.take 16 ++ zeros (16 - x.length)

theorem oneCipher_key : elt (bits (oneCipher.permute () (zeros 16))) ^ 1 = 1 := by
  rw [pow_one, show bits (oneCipher.permute () (zeros 16)) = (1#128 <<< 127) by decide +kernel]
  unfold elt
  rw [Finset.sum_eq_single 0]
  · rw [if_pos (by decide +kernel), pow_zero]
  · intro i hi h0
    rw [Finset.mem_range] at hi
    rw [if_neg]
    interval_cases i
    · exact absurd rfl h0
    all_goals decide +kernel
  · intro h
    exact absurd (Finset.mem_range.mpr (by omega)) h

example : ∃ ct t, Model.Gcm.encrypt oneCipher .debug () (zeros 16 ++ List.replicate 16 1) (zeros 12) [] (zeros 32) =
      some (ct, t) ∧ ct.take 16 ≠ ct.drop 16 ∧
    ∃ out, Model.Gcm.decrypt oneCipher .debug () (ct.drop 16 ++ ct.take 16) (zeros 12) [] t (zeros 32) = some (out, true) :=
  ⟨((Model.Gcm.encrypt oneCipher .debug () (zeros 16 ++ List.replicate 16 1) (zeros 12) [] (zeros 32)).getD ([], [])).1,
   ((Model.Gcm.encrypt oneCipher .debug () (zeros 16 ++ List.replicate 16 1) (zeros 12) [] (zeros 32)).getD ([], [])).2,
   by decide +kernel, by decide +kernel,
   ((Model.Gcm.decrypt oneCipher .debug ()
      ((((Model.Gcm.encrypt oneCipher .debug () (zeros 16 ++ List.replicate 16 1) (zeros 12) [] (zeros 32)).getD ([], [])).1.drop 16) ++
       (((Model.Gcm.encrypt oneCipher .debug () (zeros 16 ++ List.replicate 16 1) (zeros 12) [] (zeros 32)).getD ([], [])).1.take 16))
      (zeros 12) [] ((Model.Gcm.encrypt oneCipher .debug () (zeros 16 ++ List.replicate 16 1) (zeros 12) [] (zeros 32)).getD ([], [])).2
      (zeros 32)).getD ([], false)).1, by decide +kernel⟩

/-- `toyCipher` with key byte 0 sends the zero block to itself. -/
example : MapsBlocks toyCipher (0 : U8) ∧ toyCipher.permute (0 : U8) (zeros 16) = zeros 16 ∧
    (Model.Gcm.encrypt toyCipher .debug (0 : U8) [1, 2, 3] (zeros 12) [9] (zeros 3)).isSome :=
  ⟨fun _ _ => rfl, by decide +kernel, by decide +kernel⟩

/-! ## Further concrete cases -/

/-- Under a zero hash key the tag of one message fits every other one. -/
example (data' ct' buf : Bytes) (hd : data'.length < 2 ^ 61) (hc : ct'.length < 2 ^ 36 - 32) (hb : buf.length = ct'.length) :
    ∃ ct t, Model.Gcm.encrypt toyCipher .debug (0 : U8) [1, 2, 3] (zeros 12) [9] (zeros 3) = some (ct, t) ∧
      ∃ out, Model.Gcm.decrypt toyCipher .release (0 : U8) ct' (zeros 12) data' t buf = some (out, true) := by
  obtain ⟨⟨ct, t⟩, h⟩ := Option.isSome_iff_exists.mp
    (show (Model.Gcm.encrypt toyCipher .debug (0 : U8) [1, 2, 3] (zeros 12) [9] (zeros 3)).isSome by decide +kernel)
  exact ⟨ct, t, h, C97_zero_hash_key toyCipher .debug .release (0 : U8) (fun _ _ => rfl) (by decide +kernel) _ _ _ _ ct t h data' ct' buf hd hc hb
    (.inl rfl)⟩

end CryptoPure.Props
