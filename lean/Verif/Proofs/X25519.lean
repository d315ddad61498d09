import Verif.Model.X25519
import Verif.Spec.X25519
import Verif.Proofs.FePow

/-! # The X25519 code computes the RFC 7748 ladder -/

namespace CryptoPure.Model.X25519
open SL Spec Fe

/-! ## Scalars -/

theorem and248 : ∀ b : U8, (b &&& 248).toNat = b.toNat / 8 * 8 := by decide +kernel
theorem and127or64 : ∀ b : U8, ((b &&& 127) ||| 64).toNat = b.toNat % 64 + 64 := by decide +kernel

theorem split32 (n : Bytes) (h : n.length = 32) : ∃ a mid z, n = a :: (mid ++ [z]) ∧ mid.length = 30 := by
  obtain ⟨b0, b1, b2, b3, b4, b5, b6, b7, b8, b9, b10, b11, b12, b13, b14, b15, b16, b17, b18, b19, b20, b21, b22, b23,
     b24, b25, b26, b27, b28, b29, b30, b31, rfl⟩ := list32 n h
  exact ⟨b0, [b1, b2, b3, b4, b5, b6, b7, b8, b9, b10, b11, b12, b13, b14, b15, b16, b17, b18, b19, b20, b21, b22, b23,
     b24, b25, b26, b27, b28, b29, b30], b31, rfl, rfl⟩

theorem clamp_explicit (a z : U8) (mid : Bytes) (h : mid.length = 30) :
    clamp (a :: (mid ++ [z])) = (a &&& 248) :: (mid ++ [(z &&& 127) ||| 64]) := by
  have h1 : ∀ (c : U8) (x : U8), ((c :: (mid ++ [x])).getD 31 0) = x := by
    intro c x
    rw [List.getD_cons_succ, List.getD_append_right _ _ _ _ (by omega), h]
    rfl
  have h2 : ∀ (c : U8) (x y : U8), ((c :: (mid ++ [x])).set 31 y) = c :: (mid ++ [y]) := by
    intro c x y
    rw [List.set_cons_succ, List.set_append_right _ _ (by omega), h]
    rfl
  unfold clamp
  simp only [List.getD_cons_zero, List.set_cons_zero, h1, h2]

theorem leNat_snoc (mid : Bytes) (z : U8) : leNat (mid ++ [z]) = leNat mid + 256 ^ mid.length * z.toNat := by
  rw [leNat_append]; simp [leNat]

theorem clamp_val (n : Bytes) (h : n.length = 32) : leNat (clamp n) = X25519.decodeScalar n := by
  obtain ⟨a, mid, z, rfl, hm⟩ := split32 n h
  rw [clamp_explicit a z mid hm, X25519.decodeScalar]
  simp only [leNat, leNat_snoc, hm, and248, and127or64]
  have h1 := a.isLt
  have h2 := z.isLt
  have h3 := leNat_lt mid
  rw [hm] at h3
  omega

theorem clamp_length (n : Bytes) : (clamp n).length = n.length := by
  unfold clamp
  simp

theorem leNat_testBit (b : Bytes) (i : Nat) : (leNat b).testBit i = (b.getD (i / 8) 0).getLsbD (i % 8) := by
  induction b generalizing i with
  | nil => simp [leNat]
  | cons a b ih =>
    rw [leNat]
    by_cases hi : i < 8
    · rw [Nat.div_eq_of_lt hi, Nat.mod_eq_of_lt hi, List.getD_cons_zero, Nat.add_comm, show 256 = 2 ^ 8 by norm_num,
        Nat.testBit_two_pow_mul_add _ a.isLt, if_pos hi]
      rfl
    · rw [Nat.add_comm, show 256 = 2 ^ 8 by norm_num, Nat.testBit_two_pow_mul_add _ a.isLt, if_neg hi, ih]
      have : i / 8 = (i - 8) / 8 + 1 := by omega
      rw [this, List.getD_cons_succ]
      congr 1
      omega

/-- The `i`-th scalar bit as a word. -/
theorem bit_word (e : Bytes) (i : Nat) : (((e.getD (i / 8) 0) >>> (i % 8)).setWidth 32 &&& 1 : U32) =
    if (leNat e).testBit i then 1 else 0 := by
  rw [leNat_testBit]
  generalize e.getD (i / 8) 0 = b
  have hk : i % 8 < 8 := Nat.mod_lt _ (by norm_num)
  generalize i % 8 = k at *
  have key : ∀ b : U8, ∀ k : Fin 8, ((b >>> k.val).setWidth 32 &&& 1 : U32) = if b.getLsbD k.val then 1 else 0 := by
    decide +kernel
  exact key b ⟨k, hk⟩

/-! ## One iteration -/

/-- The limb state represents the ladder state. -/
structure Rel (s : Ladder) (t : X25519.St) : Prop where
  bx2 : B 1 s.x2
  bz2 : B 1 s.z2
  bx3 : B 1 s.x3
  bz3 : B 1 s.z3
  x2 : val s.x2 = t.x2
  z2 : val s.z2 = t.z2
  x3 : val s.x3 = t.x3
  z3 : val s.z3 = t.z3
  swap : s.swap = if t.swap then 1 else 0

theorem cswap_bool {f g : Fe} (b : Bool) (hf : B 1 f) (hg : B 1 g) :
    cswap f g (if b then 1 else 0) = if b then (g, f) else (f, g) := by
  cases b
  · exact cswap_zero hf hg (by norm_num) (by norm_num)
  · exact cswap_one hf hg (by norm_num) (by norm_num)

theorem xor_words : ∀ a b : Bool, ((if a then 1 else 0) ^^^ (if b then 1 else 0) : U32) = if a ^^ b then 1 else 0 := by decide +kernel

/-- The field operations of an iteration after the swaps. -/
theorem core_spec (m : Mode) {x1 x2 z2 x3 z3 : Fe} (b1 : B 1 x1) (bx2 : B 1 x2) (bz2 : B 1 z2) (bx3 : B 1 x3) (bz3 : B 1 z3)
    (swap : U32) :
    ∃ s : Ladder, (do
      let tmp0 ← sub m x3 z3
      let tmp1 ← sub m x2 z2
      let x2 ← add m x2 z2
      let z2 ← add m x3 z3
      let z3 ← mul m tmp0 x2
      let z2 ← mul m z2 tmp1
      let tmp0 ← sq m tmp1
      let tmp1 ← sq m x2
      let x3 ← add m z3 z2
      let z2 ← sub m z3 z2
      let x2 ← mul m tmp1 tmp0
      let tmp1 ← sub m tmp1 tmp0
      let z2 ← sq m z2
      let z3 ← mul121666 m tmp1
      let x3 ← sq m x3
      let tmp0 ← add m tmp0 z3
      let z3 ← mul m x1 z2
      let z2 ← mul m tmp1 tmp0
      some ({ x2, z2, x3, z3, swap } : Ladder)) = some s ∧ B 1 s.x2 ∧ B 1 s.z2 ∧ B 1 s.x3 ∧ B 1 s.z3 ∧ s.swap = swap ∧
      val s.x2 = (val x2 + val z2) ^ 2 * (val x2 - val z2) ^ 2 ∧
      val s.z2 = ((val x2 + val z2) ^ 2 - (val x2 - val z2) ^ 2) *
        ((val x2 + val z2) ^ 2 + 121665 * ((val x2 + val z2) ^ 2 - (val x2 - val z2) ^ 2)) ∧
      val s.x3 = ((val x3 - val z3) * (val x2 + val z2) + (val x3 + val z3) * (val x2 - val z2)) ^ 2 ∧
      val s.z3 = val x1 * ((val x3 - val z3) * (val x2 + val z2) - (val x3 + val z3) * (val x2 - val z2)) ^ 2 := by
  obtain ⟨a1, e1, c1, v1⟩ := sub_spec m bx3 bz3 (by norm_num)
  obtain ⟨a2, e2, c2, v2⟩ := sub_spec m bx2 bz2 (by norm_num)
  obtain ⟨a3, e3, c3, v3⟩ := add_spec m bx2 bz2 (by norm_num)
  obtain ⟨a4, e4, c4, v4⟩ := add_spec m bx3 bz3 (by norm_num)
  obtain ⟨a5, e5, c5, v5⟩ := mul_spec m (c1.mono (by norm_num)) (c3.mono (by norm_num))
  obtain ⟨a6, e6, c6, v6⟩ := mul_spec m (c4.mono (by norm_num)) (c2.mono (by norm_num))
  obtain ⟨a7, e7, c7, v7⟩ := sq_spec m (c2.mono (by norm_num))
  obtain ⟨a8, e8, c8, v8⟩ := sq_spec m (c3.mono (by norm_num))
  obtain ⟨a9, e9, c9, v9⟩ := add_spec m c5 c6 (by norm_num)
  obtain ⟨a10, e10, c10, v10⟩ := sub_spec m c5 c6 (by norm_num)
  obtain ⟨a11, e11, c11, v11⟩ := mul_spec m (c8.mono (by norm_num)) (c7.mono (by norm_num))
  obtain ⟨a12, e12, c12, v12⟩ := sub_spec m c8 c7 (by norm_num)
  obtain ⟨a13, e13, c13, v13⟩ := sq_spec m (c10.mono (by norm_num))
  obtain ⟨a14, e14, c14, v14⟩ := mul121666_spec m (c12.mono (by norm_num))
  obtain ⟨a15, e15, c15, v15⟩ := sq_spec m (c9.mono (by norm_num))
  obtain ⟨a16, e16, c16, v16⟩ := add_spec m c7 c14 (by norm_num)
  obtain ⟨a17, e17, c17, v17⟩ := mul_spec m (b1.mono (by norm_num)) (c13.mono (by norm_num))
  obtain ⟨a18, e18, c18, v18⟩ := mul_spec m (c12.mono (by norm_num)) (c16.mono (by norm_num))
  refine ⟨{ x2 := a11, z2 := a18, x3 := a15, z3 := a17, swap := swap }, ?_, c11, c18, c15, c17, rfl, ?_, ?_, ?_, ?_⟩
  · exact bind_step e1 <| bind_step e2 <| bind_step e3 <| bind_step e4 <| bind_step e5 <| bind_step e6 <| bind_step e7 <|
      bind_step e8 <| bind_step e9 <| bind_step e10 <| bind_step e11 <| bind_step e12 <| bind_step e13 <| bind_step e14 <|
      bind_step e15 <| bind_step e16 <| bind_step e17 <| bind_step e18 rfl
  · simp only [v11, v8, v7, v3, v2]; ring
  · simp only [v18, v12, v16, v14, v8, v7, v3, v2]; ring
  · simp only [v15, v9, v5, v6, v1, v2, v3, v4]; ring
  · simp only [v17, v13, v10, v5, v6, v1, v2, v3, v4]; ring

theorem step_spec (m : Mode) {e : Bytes} {x1 : Fe} (b1 : B 1 x1) {s : Ladder} {t : X25519.St} (h : Rel s t) (pos : Nat) :
    ∃ s', ladderStep m e x1 s pos = some s' ∧ Rel s' (X25519.step (val x1) ((leNat e).testBit pos) t) := by
  unfold ladderStep
  simp only [bit_word, h.swap, xor_words]
  rw [cswap_bool _ h.bx2 h.bx3, cswap_bool _ h.bz2 h.bz3]
  unfold X25519.step X25519.cswap
  simp only
  split
  · obtain ⟨s', q1, q2, q3, q4, q5, q6, q7, q8, q9, q10⟩ := core_spec m b1 h.bx3 h.bz3 h.bx2 h.bz2
      (if (leNat e).testBit pos then 1 else 0)
    refine ⟨s', q1, ⟨q2, q3, q4, q5, ?_, ?_, ?_, ?_, q6⟩⟩
    · simp only [q7, h.x3, h.z3]
    · simp only [q8, h.x3, h.z3]
    · simp only [q9, h.x3, h.z3, h.x2, h.z2]
    · simp only [q10, h.x3, h.z3, h.x2, h.z2]
  · obtain ⟨s', q1, q2, q3, q4, q5, q6, q7, q8, q9, q10⟩ := core_spec m b1 h.bx2 h.bz2 h.bx3 h.bz3
      (if (leNat e).testBit pos then 1 else 0)
    refine ⟨s', q1, ⟨q2, q3, q4, q5, ?_, ?_, ?_, ?_, q6⟩⟩
    · simp only [q7, h.x2, h.z2]
    · simp only [q8, h.x2, h.z2]
    · simp only [q9, h.x3, h.z3, h.x2, h.z2]
    · simp only [q10, h.x3, h.z3, h.x2, h.z2]

theorem fold_spec (m : Mode) {e : Bytes} {x1 : Fe} (b1 : B 1 x1) (l : List Nat) {s : Ladder} {t : X25519.St} (h : Rel s t) :
    ∃ s', l.foldlM (ladderStep m e x1) s = some s' ∧
      Rel s' (l.foldl (fun s t => X25519.step (val x1) ((leNat e).testBit t) s) t) := by
  induction l generalizing s t with
  | nil => exact ⟨s, rfl, h⟩
  | cons i l ih =>
    obtain ⟨s1, h1, h2⟩ := step_spec m b1 h i
    obtain ⟨s2, h3, h4⟩ := ih h2
    refine ⟨s2, ?_, h4⟩
    rw [List.foldlM_cons, h1]
    exact h3

theorem pm2 : p25519 - 2 = 2 ^ 255 - 21 := by norm_num [p25519]

attribute [local irreducible] p25519 in
theorem scalarmult_spec (m : Mode) {n p : Bytes} (hn : n.length = 32) (hp : p.length = 32) :
    scalarmult m n p = some (X25519.x25519 n p) := by
  unfold scalarmult
  rw [assert_bind, if_pos (by simp [hn]), assert_bind, if_pos (by simp [hp])]
  obtain ⟨x1, e1, b1, v1⟩ := fromBytes_spec m hp
  obtain ⟨s, e2, h2⟩ := fold_spec m (e := clamp n) b1 (List.range 255).reverse
    (s := { x2 := Fe.one, z2 := Fe.zero, x3 := x1, z3 := Fe.one, swap := 0 })
    (t := { x2 := 1, z2 := 0, x3 := val x1, z3 := 1, swap := false })
    ⟨one_B, zero_B, b1, one_B, val_one, val_zero, rfl, val_one, rfl⟩
  refine bind_step e1 <| bind_step e2 ?_
  have hl : X25519.x25519 n p = X25519.encodeU (X25519.ladder (leNat (clamp n)) (val x1)) := by
    rw [X25519.x25519, clamp_val n hn, v1]
    rfl
  rw [hl]
  unfold X25519.ladder
  rw [pm2]
  revert h2
  generalize (List.range 255).reverse.foldl (fun s t => X25519.step (val x1) ((leNat (clamp n)).testBit t) s)
    { x2 := 1, z2 := 0, x3 := val x1, z3 := 1, swap := false } = t
  intro h2
  rw [h2.swap, cswap_bool _ h2.bx2 h2.bx3, cswap_bool _ h2.bz2 h2.bz3]
  unfold X25519.cswap X25519.encodeU
  cases hsw : t.swap with
  | true =>
    simp only [if_true]
    obtain ⟨a, e3, b3, v3⟩ := invert_pow m h2.bz3
    obtain ⟨b, e4, b4, v4⟩ := mul_spec m (h2.bx3.mono (by norm_num)) (b3.mono (by norm_num))
    refine bind_step e3 <| bind_step e4 ?_
    rw [toBytes_spec m (b4.mono (by norm_num)), v4, v3, h2.x3, h2.z3, if_pos hsw, if_pos hsw]
  | false =>
    simp only [Bool.false_eq_true, if_false]
    obtain ⟨a, e3, b3, v3⟩ := invert_pow m h2.bz2
    obtain ⟨b, e4, b4, v4⟩ := mul_spec m (h2.bx2.mono (by norm_num)) (b3.mono (by norm_num))
    refine bind_step e3 <| bind_step e4 ?_
    rw [toBytes_spec m (b4.mono (by norm_num)), v4, v3, h2.x2, h2.z2, if_neg (by simp [hsw]), if_neg (by simp [hsw])]

theorem scalarmult_panic (m : Mode) {n p : Bytes} (h : n.length ≠ 32 ∨ p.length ≠ 32) : scalarmult m n p = none := by
  unfold scalarmult
  rw [assert_bind]
  split
  · rename_i h1
    rw [assert_bind]
    split
    · rename_i h2
      simp only [beq_iff_eq] at h1 h2
      omega
    · rfl
  · rfl

end CryptoPure.Model.X25519
