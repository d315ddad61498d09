import Verif.Proofs.Sha2
import Verif.Model.Util

/-! Abstract behaviour of the four hash objects, used by everything built on top of them. -/

namespace CryptoPure.Proofs
open CryptoPure.Model.Sha2

/-- `H` behaves like the hash `hash`: `R msg s` says that the object `s` has been fed the bytes `msg`. -/
structure Lawful (H : HashFunction) (hash : Bytes → Bytes) (R : Bytes → H.State → Prop) : Prop where
  init : R [] H.default
  update : ∀ m msg s x, R msg s → (msg ++ x).length < 2 ^ 61 →
    ∃ s', H.update m s x = some s' ∧ R (msg ++ x) s'
  finish : ∀ m msg s out, R msg s → msg.length < 2 ^ 61 → out.length = H.digestSize →
    H.writeDigest m s out = some (hash msg)
  hashLen : ∀ msg, (hash msg).length = H.digestSize
  digestPos : 0 < H.digestSize
  digestMax : H.digestSize ≤ maxDigestSize
  digestBlock : H.digestSize ≤ H.blockSize
  blockMax : H.blockSize ≤ 2 ^ 32

section sha
variable {w : Nat} {P : Params w} {A : Spec.Sha2.Alg w}

/-- `s` has been fed `msg`. -/
def ShaRel (P : Params w) (iv : Oct w) (msg : Bytes) (s : Proc w) : Prop :=
  Sha2.Absorbs P iv msg s ∧ s.len = BitVec.ofNat 64 msg.length

theorem shaRel_update (hb : 0 < P.blockSize) (m : Mode) (iv : Oct w) (msg x : Bytes) (s : Proc w)
    (hs : ShaRel P iv msg s)
    (hm : m = .release ∨ msg.length % 2 ^ 64 + x.length % 2 ^ 64 < 2 ^ 64) :
    ∃ s', update P m s x = some s' ∧ ShaRel P iv (msg ++ x) s' := by
  have hadd : addC m s.len (BitVec.ofNat 64 x.length) = some (BitVec.ofNat 64 (msg ++ x).length) := by
    rw [List.length_append, BitVec.ofNat_add, hs.2]
    rcases hm with rfl | h
    · exact addC_release _ _
    · apply addC_ok; simpa using h
  obtain ⟨s', h1, h2, h3⟩ := Sha2.update_spec hb m iv msg x s hs.1 _ hadd
  exact ⟨s', h1, h2, h3⟩

theorem digestWith_length (iv : Oct w) (n : Nat) (hn : n ≤ 8 * (w / 8)) (msg : Bytes)
    (bits : Nat) : (Spec.Sha2.digestWith A iv n msg bits).length = n := by
  unfold Spec.Sha2.digestWith
  simp only [List.length_take, List.length_flatMap, toBE_length, Oct.toList]
  simp; omega

theorem lawful_impl (M : Sha2.Matches P A) (iv : Oct w) (n : Nat) (hn : n ≤ 8 * (w / 8)) (h0 : 0 < n)
    (hd : n % (w / 8) = 0) (h64 : n ≤ 64) (h128 : P.blockSize ≤ 128) :
    Lawful (implFunction P iv n P.blockSize) (Spec.Sha2.digest A iv n) (ShaRel P iv) := by
  have hb := M.block
  have hw := M.wpos
  refine ⟨⟨Sha2.absorbs_new iv (by omega), rfl⟩, ?_, ?_, ?_, h0, h64, ?_, h128.trans (by norm_num)⟩
  · intro m msg s x hs hl
    exact shaRel_update (by omega) m iv msg x s hs (Or.inr (by rw [List.length_append] at hl; omega))
  · intro m msg s out hs hl ho
    have ho : out.length = n := ho
    show (do assert (n == out.length); procWriteDigest P m s out.length) = _
    rw [ho]
    simp only [beq_self_eq_true, assert_true, Option.bind_eq_bind, Option.bind_some]
    have hmul : mulC m 8 s.len = some (BitVec.ofNat 64 (8 * msg.length)) := by
      rw [hs.2, BitVec.ofNat_mul]
      apply mulC_ok
      have e8 : (8 : U64).toNat = 8 := rfl
      rw [e8, BitVec.toNat_ofNat]
      omega
    rw [Sha2.procWriteDigest_spec M m iv msg s hs.1 _ hmul n hd]
    rw [Spec.Sha2.digest, BitVec.toNat_ofNat, Nat.mod_eq_of_lt (by omega)]
  · intro msg; exact digestWith_length iv n hn msg _
  · show n ≤ P.blockSize
    omega

end sha

theorem foldlM_update {H : HashFunction} {hash : Bytes → Bytes} {R : Bytes → H.State → Prop}
    (L : Lawful H hash R) (m : Mode) (parts : List Bytes) (msg : Bytes) (s : H.State) (hs : R msg s)
    (hl : (msg ++ parts.flatten).length < 2 ^ 61) :
    ∃ s', parts.foldlM (H.update m) s = some s' ∧ R (msg ++ parts.flatten) s' := by
  induction parts generalizing msg s with
  | nil => exact ⟨s, rfl, by simpa using hs⟩
  | cons p ps ih =>
    simp only [List.flatten_cons, List.length_append] at hl
    obtain ⟨s1, h1, h2⟩ := L.update m msg s p hs (by rw [List.length_append]; omega)
    obtain ⟨s2, h3, h4⟩ := ih (msg ++ p) s1 h2 (by simp only [List.length_append]; omega)
    refine ⟨s2, ?_, by simpa using h4⟩
    rw [List.foldlM_cons, h1]
    exact h3

/-! ### `util` -/

theorem foldl_or_zero (l : List (U8 × U8)) (acc : U8) :
    l.foldl (fun acc p => acc ||| (p.1 ^^^ p.2)) acc = 0 ↔ acc = 0 ∧ ∀ p ∈ l, p.1 = p.2 := by
  induction l generalizing acc with
  | nil => simp
  | cons p ps ih =>
    rw [List.foldl_cons, ih]
    rw [show (0 : U8) = 0#8 from rfl, BitVec.or_eq_zero_iff, BitVec.xor_eq_zero_iff]
    simp [and_assoc]

theorem zip_all_eq (x y : Bytes) (h : x.length = y.length) : (∀ p ∈ x.zip y, p.1 = p.2) ↔ x = y := by
  induction x generalizing y with
  | nil =>
    cases y with
    | nil => simp
    | cons b y => simp at h
  | cons a x ih =>
    cases y with
    | nil => simp at h
    | cons b y => simp only [List.zip_cons_cons, List.mem_cons, forall_eq_or_imp, List.cons.injEq,
        ih y (by simpa using h)]

theorem verifyInner_spec (x y : Bytes) (h : x.length = y.length) :
    ∃ d, Model.Util.verifyInner x y = some d ∧ (d = 0 ↔ x = y) := by
  have e : Model.Util.verifyInner x y =
      some ((x.zip y).foldl (fun acc p => acc ||| (p.1 ^^^ p.2)) 0) := by
    simp only [Model.Util.verifyInner, h, beq_self_eq_true, assert_true, Option.bind_eq_bind,
      Option.bind_some]
  refine ⟨_, e, ?_⟩
  rw [foldl_or_zero, zip_all_eq x y h]; simp

/-- The comparison used by every tag check. -/
theorem compare_spec (x y : Bytes) :
    (if x.length == y.length then do
      let d ← Model.Util.verifyInner x y
      some (d == 0)
    else some false) = some (decide (x = y)) := by
  by_cases h : x.length = y.length
  · obtain ⟨d, h1, h2⟩ := verifyInner_spec x y h
    simp only [h, beq_self_eq_true, if_true, h1, Option.bind_eq_bind, Option.bind_some]
    congr 1
    by_cases e : x = y
    · simp [e, h2.mpr e]
    · have : d ≠ 0 := fun h0 => e (h2.mp h0)
      rw [beq_eq_false_iff_ne.mpr this]; simp [e]
  · have : x ≠ y := fun e => h (by rw [e])
    simp [h, this]

end CryptoPure.Proofs
