import Verif.Proofs.EdSlide

/-! # Encoding and decoding of points -/

namespace CryptoPure.Ed
open Model Model.Fe Model.Ed25519 Spec Spec.Ed25519 Edwards

/-! ## Comparison of byte strings, sign, zero test -/

theorem fold_or (x y : Bytes) (hl : x.length = y.length) (acc : U8) :
    ∃ w : U8, (x.zip y).foldl (fun acc p => acc ||| (p.1 ^^^ p.2).setWidth 32) (acc.setWidth 32 : BitVec 32) = w.setWidth 32 ∧
      (w = 0 ↔ acc = 0 ∧ x = y) := by
  induction x generalizing y acc with
  | nil =>
    cases y with
    | nil => exact ⟨acc, rfl, by simp⟩
    | cons b bs => simp at hl
  | cons a as ih =>
    cases y with
    | nil => simp at hl
    | cons b bs =>
      obtain ⟨w, e, h⟩ := ih bs (by simpa using hl) (acc ||| (a ^^^ b))
      refine ⟨w, ?_, ?_⟩
      · rw [List.zip_cons_cons, List.foldl_cons, ← e]
        congr 1
      · have : (acc ||| (a ^^^ b)) = 0 ↔ acc = 0 ∧ a = b := by
          rw [show (0 : U8) = 0#8 from rfl, BitVec.or_eq_zero_iff, BitVec.xor_eq_zero_iff]
        rw [h, List.cons_eq_cons, this]
        tauto

theorem v32_zero : ∀ w : U8, ((1 &&& ((w.setWidth 32 : BitVec 32) - 1).sshiftRight 8) - 1 = 0) ↔ w = 0 := by decide +kernel

theorem verify32_spec {x y : Bytes} (hl : x.length = y.length) : verify32 x y = 0 ↔ x = y := by
  obtain ⟨w, e, h⟩ := fold_or x y hl 0
  unfold verify32
  rw [show (0 : BitVec 32) = (0 : U8).setWidth 32 by decide, e]
  have := v32_zero w
  simp only at this ⊢
  rw [show ((0 : U8).setWidth 32 : BitVec 32) = 0 by decide, this, h]
  simp

theorem isNegative_spec (m : Mode) {f : Fe} (hf : B 3 f) : isNegative m f = some (BitVec.ofNat 32 ((val f).val % 2)) := by
  refine bind_step (toBytes_spec m hf) ?_
  congr 1
  generalize (val f).val = x
  apply BitVec.eq_of_toNat_eq
  have : (toLE 32 x).getD 0 0 = BitVec.ofNat 8 x := rfl
  rw [this, BitVec.toNat_setWidth, BitVec.toNat_and, BitVec.toNat_ofNat, BitVec.toNat_ofNat, show (1 : U8).toNat = 1 from rfl,
    Nat.and_one_is_mod]
  omega

theorem isNonzero_spec (m : Mode) {f : Fe} (hf : B 3 f) : ∃ c, isNonzero m f = some c ∧ (c = 0 ↔ val f = 0) := by
  refine ⟨_, bind_step (toBytes_spec m hf) rfl, ?_⟩
  rw [verify32_spec (by simp)]
  constructor
  · intro h
    have h2 := congrArg leNat h
    rw [leNat_toLE, leNat_zeros, Nat.mod_eq_of_lt (lt_trans (ZMod.val_lt _) (by norm_num [p25519]))] at h2
    exact (ZMod.val_eq_zero _).mp h2
  · intro h
    rw [h, ZMod.val_zero]
    decide

/-! ## Encoding -/

theorem top_xor : ∀ b : U8, ∀ n : Fin 2, b.toNat < 128 → (b ^^^ ((BitVec.ofNat 32 n.val) <<< 7).setWidth 8).toNat = b.toNat + 128 * n.val := by
  decide +kernel

theorem set_top {s : Bytes} (hl : s.length = 32) (hs : leNat s < 2 ^ 255) {n : Nat} (hn : n < 2) :
    s.set 31 (s.getD 31 0 ^^^ ((BitVec.ofNat 32 n) <<< 7).setWidth 8) = toLE 32 (leNat s + 2 ^ 255 * n) := by
  have h31 : s = s.take 31 ++ [s.getD 31 0] := by
    rw [List.getD_eq_getElem _ _ (by omega), ← List.take_succ_eq_append_getElem (by omega), List.take_of_length_le (by omega)]
  have hn' : leNat s = leNat (s.take 31) + 256 ^ 31 * (s.getD 31 0).toNat := by
    conv_lhs => rw [← List.take_of_length_le (i := 32) (l := s) (by omega)]
    rw [leNat_take_succ]
  have hb : (s.getD 31 0).toNat < 128 := by
    by_contra hc
    push Not at hc
    have := Nat.mul_le_mul_left (256 ^ 31) hc
    rw [hn'] at hs
    norm_num at hs this
    omega
  refine leNat_inj (by simp [hl]) ?_
  rw [leNat_toLE, Nat.mod_eq_of_lt (by norm_num; norm_num at hs; omega)]
  conv_lhs => rw [h31]
  generalize s.getD 31 0 = b at *
  have ht : (s.take 31).length = 31 := by simp [hl]
  rw [List.set_append_right _ _ (by omega), ht, Nat.sub_self, List.set_cons_zero, leNat_append, ht, hn']
  rw [List.getD_append_right _ _ _ _ (by omega), ht]
  have := top_xor b ⟨n, hn⟩ hb
  simp only [Nat.sub_self, List.getD_cons_zero, leNat] at this ⊢
  rw [this]
  ring

theorem toBytes_encode (m : Mode) {hx hy hz : Fe} {P : Pt25519} (bx : B 1 hx) (by' : B 1 hy) (bz : B 1 hz) (z0 : val hz ≠ 0)
    (ex : val hx = px P * val hz) (ey : val hy = py P * val hz) : Model.Ed25519.toBytes m hx hy hz = some (encode P.1) := by
  obtain ⟨r, e1, b1, v1⟩ := invert_spec m bz
  obtain ⟨x, e2, b2, v2⟩ := mul_spec m (bx.mono (by norm_num)) (b1.mono (by norm_num))
  obtain ⟨y, e3, b3, v3⟩ := mul_spec m (by'.mono (by norm_num)) (b1.mono (by norm_num))
  have hx' : val x = px P := by rw [v2, v1, ex, mul_assoc, mul_inv_cancel₀ z0, mul_one]
  have hy' : val y = py P := by rw [v3, v1, ey, mul_assoc, mul_inv_cancel₀ z0, mul_one]
  refine bind_step e1 <| bind_step e2 <| bind_step e3 <| bind_step (toBytes_spec m (b3.mono (by norm_num))) <|
    bind_step (isNegative_spec m (b2.mono (by norm_num))) ?_
  rw [hx', hy']
  have hlt : (py P).val < 2 ^ 255 := lt_trans (ZMod.val_lt _) (by norm_num [p25519])
  have hle : leNat (toLE 32 (py P).val) = (py P).val := by
    rw [leNat_toLE, Nat.mod_eq_of_lt (lt_trans hlt (by norm_num))]
  rw [set_top (by simp) (by rw [hle]; exact hlt) (Nat.mod_lt _ (by norm_num)), hle]
  rfl

theorem RepP3.encode (m : Mode) {p : GeP3} {P : Pt25519} (h : RepP3 p P) :
    Model.Ed25519.toBytes m p.x p.y p.z = some (Spec.Ed25519.encode P.1) := toBytes_encode m h.bx h.by' h.bz h.z0 h.x h.y

theorem RepP2.encode (m : Mode) {p : GeP2} {P : Pt25519} (h : RepP2 p P) :
    Model.Ed25519.toBytes m p.x p.y p.z = some (Spec.Ed25519.encode P.1) := toBytes_encode m h.bx h.by' h.bz h.z0 h.x h.y

/-! ## Decoding -/

theorem onCurve_iff' {x y : F} : onCurve (x, y) ↔ x ^ 2 * (d * y ^ 2 + 1) = y ^ 2 - 1 := by
  unfold onCurve
  constructor <;> intro h
  · linear_combination -h
  · linear_combination -h

theorem v_ne (y : F) : d * y ^ 2 + 1 ≠ 0 := by
  obtain ⟨i, hi⟩ := hyp.sqrtm1
  rw [add_comm]
  exact den_y hi d_nonsq y

theorem p_odd : p25519 % 2 = 1 := by norm_num [p25519]

/-- Negation changes the parity. -/
theorem neg_parity {x : F} (hx : x ≠ 0) : (-x).val % 2 = 1 - x.val % 2 := by
  have h := ZMod.neg_val x
  rw [if_neg hx] at h
  have hlt := ZMod.val_lt x
  have := p_odd
  rw [h]
  omega

/-- The decoded point is unique. -/
theorem decodesLax_unique {s : Bytes} {P Q : Point} (hP : DecodesLax s P) (hQ : DecodesLax s Q) : P = Q := by
  obtain ⟨p1, p2, p3⟩ := hP
  obtain ⟨q1, q2, q3⟩ := hQ
  obtain ⟨x, y⟩ := P
  obtain ⟨x', y'⟩ := Q
  rw [onCurve_iff'] at p1 q1
  simp only at p2 q2 p3 q3
  rw [← p2] at q2
  subst q2
  have hsq : x ^ 2 = x' ^ 2 := mul_right_cancel₀ (v_ne y') (p1.trans q1.symm)
  rcases sq_eq_sq_iff_eq_or_eq_neg.mp hsq with h | h
  · rw [h]
  · by_cases h0 : x' = 0
    · rw [h, h0, neg_zero]
    · exfalso
      have hx0 : x ≠ 0 := by rw [h]; exact neg_ne_zero.mpr h0
      have a1 := p3.resolve_left hx0
      have a2 := q3.resolve_left h0
      have := neg_parity h0
      rw [← h, a1, a2] at this
      omega

theorem top_bit {s : Bytes} (hl : s.length = 32) : ((s.getD 31 0 >>> 7).setWidth 32 : BitVec 32) = BitVec.ofNat 32 (leNat s / 2 ^ 255 % 2) := by
  have hn' : leNat s = leNat (s.take 31) + 256 ^ 31 * (s.getD 31 0).toNat := by
    conv_lhs => rw [← List.take_of_length_le (i := 32) (l := s) (by omega)]
    rw [leNat_take_succ]
  have ht := leNat_lt (s.take 31)
  rw [show (s.take 31).length = 31 by simp [hl]] at ht
  have hb := (s.getD 31 0).isLt
  have e : leNat s / 2 ^ 255 % 2 = (s.getD 31 0).toNat / 128 := by
    rw [hn']
    norm_num at ht ⊢
    omega
  rw [e]
  apply BitVec.eq_of_toNat_eq
  rw [BitVec.toNat_setWidth, BitVec.toNat_ushiftRight, BitVec.toNat_ofNat, Nat.shiftRight_eq_div_pow]

theorem fermat {z : F} (hz : z ≠ 0) : z ^ (2 ^ 255 - 20) = 1 := by
  have := ZMod.pow_card_sub_one_eq_one hz
  rw [show p25519 - 1 = 2 ^ 255 - 20 from rfl] at this
  exact this

theorem pow_helper (u v : F) : ((u * v ^ 7) ^ (2 ^ 252 - 3) * v ^ 3 * u) ^ 2 * v = u * (u * v ^ 7) ^ (2 ^ 253 - 5) := by
  rw [show (2 ^ 253 - 5 : Nat) = (2 ^ 252 - 3) * 2 + 1 by norm_num, pow_succ (u * v ^ 7), pow_mul (u * v ^ 7)]
  generalize (u * v ^ 7) ^ (2 ^ 252 - 3) = z
  ring

/-- The recovered candidate: its square times `v` is `u` up to sign exactly when `u / v` is a square. -/
theorem candidate {u v x : F} (h : x ^ 2 * v = u) :
    u * (u * v ^ 7) ^ (2 ^ 253 - 5) = u ∨ u * (u * v ^ 7) ^ (2 ^ 253 - 5) = -u := by
  by_cases hx : x * v ^ 4 = 0
  · have : u = 0 := by
      rcases mul_eq_zero.mp hx with hx | hx
      · rw [← h, hx]; ring
      · rw [← h, pow_eq_zero_iff (by norm_num) |>.mp hx]; ring
    left; rw [this]; ring
  · have e : u * v ^ 7 = (x * v ^ 4) ^ 2 := by rw [← h]; ring
    have h1 : ((u * v ^ 7) ^ (2 ^ 253 - 5)) ^ 2 = 1 := by
      rw [e, ← pow_mul, ← pow_mul, show 2 * ((2 ^ 253 - 5) * 2) = 2 ^ 255 - 20 by norm_num]
      exact fermat hx
    rcases sq_eq_sq_iff_eq_or_eq_neg.mp (h1.trans (one_pow 2).symm) with h2 | h2
    · left; rw [h2]; ring
    · right; rw [h2]; ring

theorem fromBytesNegate_spec (m : Mode) {s : Bytes} (hs : s.length = 32) :
    (∃ (A : Pt25519) (g : GeP3), fromBytesNegate m s = some (some g) ∧ DecodesLax s A.1 ∧ RepP3 g (-A)) ∨
    (fromBytesNegate m s = some none ∧ ∀ P, ¬ DecodesLax s P) := by
  obtain ⟨y, e1, b1, v1⟩ := fromBytes_spec m hs
  obtain ⟨u0, e2, b2, v2⟩ := sq_spec m (b1.mono (by norm_num))
  obtain ⟨v0, e3, b3, v3⟩ := mul_spec m (b2.mono (by norm_num)) (D_B.mono (by norm_num))
  obtain ⟨u, e4, b4, v4⟩ := sub_spec m b2 one_B (by norm_num)
  obtain ⟨v, e5, b5, v5⟩ := add_spec m b3 one_B (by norm_num)
  obtain ⟨w3, e6, b6, v6⟩ := sq_spec m (b5.mono (by norm_num))
  obtain ⟨t3, e7, b7, v7⟩ := mul_spec m (b6.mono (by norm_num)) (b5.mono (by norm_num))
  obtain ⟨h1, e8, b8, v8⟩ := sq_spec m (b7.mono (by norm_num))
  obtain ⟨h2, e9, b9, v9⟩ := mul_spec m (b8.mono (by norm_num)) (b5.mono (by norm_num))
  obtain ⟨h3, e10, b10, v10⟩ := mul_spec m (b9.mono (by norm_num)) (b4.mono (by norm_num))
  obtain ⟨h4, e11, b11, v11⟩ := pow22523_spec m b10
  obtain ⟨h5, e12, b12, v12⟩ := mul_spec m (b11.mono (by norm_num)) (b7.mono (by norm_num))
  obtain ⟨h6, e13, b13, v13⟩ := mul_spec m (b12.mono (by norm_num)) (b4.mono (by norm_num))
  obtain ⟨x1, e14, b14, v14⟩ := sq_spec m (b13.mono (by norm_num))
  obtain ⟨x2, e15, b15, v15⟩ := mul_spec m (b14.mono (by norm_num)) (b5.mono (by norm_num))
  obtain ⟨c1, e16, b16, v16⟩ := sub_spec m b15 b4 (by norm_num)
  obtain ⟨c2, e17, b17, v17⟩ := add_spec m b15 b4 (by norm_num)
  obtain ⟨n1, e18, hn1⟩ := isNonzero_spec m (b16.mono (by norm_num))
  obtain ⟨n2, e19, hn2⟩ := isNonzero_spec m (b17.mono (by norm_num))
  obtain ⟨h7, e20, b20, v20⟩ := mul_spec m (b13.mono (by norm_num)) (SQRTM1_B.mono (by norm_num))
  have hu : val u = val y ^ 2 - 1 := by rw [v4, v2, val_one]; ring
  have hv : val v = d * val y ^ 2 + 1 := by rw [v5, v3, v2, val_D, val_one]; ring
  have hx2 : val x2 = val u * (val u * val v ^ 7) ^ (2 ^ 253 - 5) := by
    rw [← pow_helper, v15, v14, v13, v12, v11, v7, v6, v10, v9, v8, v7, v6]
    ring
  -- the last part, for a square root `x` of `u / v`
  have final : ∀ {x : Fe}, B 1 x → val x ^ 2 * val v = val u → ∃ (A : Pt25519) (g : GeP3), (do
      let n ← isNegative m x
      let hx ← (if n = (s.getD 31 0 >>> 7).setWidth 32 then neg m x else some x)
      let ht ← mul m hx y
      some (some { x := hx, y := y, z := Fe.one, t := ht : GeP3 })) = some (some g) ∧ DecodesLax s A.1 ∧ RepP3 g (-A) := by
    intro x bx hx
    have hc : onCurve (val x, val y) := by rw [onCurve_iff', ← hv, ← hu]; exact hx
    have hc' : onCurve (-val x, val y) := by rw [onCurve_iff', ← hv, ← hu, neg_sq]; exact hx
    rw [isNegative_spec m (bx.mono (by norm_num)), top_bit hs]
    have hcond : BitVec.ofNat 32 ((val x).val % 2) = BitVec.ofNat 32 (leNat s / 2 ^ 255 % 2) ↔ (val x).val % 2 = leNat s / 2 ^ 255 % 2 := by
      constructor
      · intro h
        have := congrArg BitVec.toNat h
        rw [BitVec.toNat_ofNat, BitVec.toNat_ofNat] at this
        omega
      · intro h; rw [h]
    by_cases hsg : (val x).val % 2 = leNat s / 2 ^ 255 % 2
    · obtain ⟨nx, f1, g1, k1⟩ := neg_spec m bx (by norm_num)
      obtain ⟨t, f2, g2, k2⟩ := mul_spec m (g1.mono (by norm_num)) (b1.mono (by norm_num))
      refine ⟨⟨(val x, val y), hc⟩, ⟨nx, y, Fe.one, t⟩, ?_, ⟨hc, v1, Or.inr hsg⟩, ?_⟩
      · refine bind_step rfl <| bind_step ?_ <| bind_step f2 rfl
        rw [if_pos (hcond.mpr hsg)]
        exact f1
      · refine ⟨g1, b1, one_B, g2, ?_, ?_, ?_, ?_⟩
        · rw [val_one]; exact one_ne_zero
        · show val nx = -val x * val one; rw [k1, val_one]; ring
        · show val y = val y * val one; rw [val_one]; ring
        · show val t = -val x * val y * val one; rw [k2, k1, val_one]; ring
    · obtain ⟨t, f2, g2, k2⟩ := mul_spec m (bx.mono (by norm_num)) (b1.mono (by norm_num))
      refine ⟨⟨(-val x, val y), hc'⟩, ⟨x, y, Fe.one, t⟩, ?_, ⟨hc', v1, ?_⟩, ?_⟩
      · refine bind_step rfl <| bind_step ?_ <| bind_step f2 rfl
        rw [if_neg (fun h => hsg (hcond.mp h))]
      · by_cases h0 : val x = 0
        · left; show -val x = 0; rw [h0, neg_zero]
        · right
          show (-val x).val % 2 = _
          rw [neg_parity h0]
          omega
      · refine ⟨bx, b1, one_B, g2, ?_, ?_, ?_, ?_⟩
        · rw [val_one]; exact one_ne_zero
        · show val x = - -val x * val one; rw [val_one]; ring
        · show val y = val y * val one; rw [val_one]; ring
        · show val t = - -val x * val y * val one; rw [k2, val_one]; ring
  have start : ∀ {R : Option (Option GeP3)}, (do
      let hx? ← (
        if n1 ≠ 0 then do
          let check ← add m x2 u
          let c ← isNonzero m check
          if c ≠ 0 then some none
          else do
            let hx ← mul m h6 SQRTM1
            some (some hx)
        else some (some h6))
      match hx? with
      | none => some none
      | some hx => do
        let n ← isNegative m hx
        let hx ← (if n = (s.getD 31 0 >>> 7).setWidth 32 then neg m hx else some hx)
        let ht ← mul m hx y
        some (some { x := hx, y := y, z := Fe.one, t := ht : GeP3 })) = R → fromBytesNegate m s = R := by
    intro R h
    exact bind_step e1 <| bind_step e2 <| bind_step e3 <| bind_step e4 <| bind_step e5 <| bind_step e6 <| bind_step e7 <|
      bind_step e8 <| bind_step e9 <| bind_step e10 <| bind_step e11 <| bind_step e12 <| bind_step e13 <| bind_step e14 <|
      bind_step e15 <| bind_step e16 <| bind_step e18 h
  by_cases k1 : n1 = 0
  · left
    have hc1 : val c1 = 0 := hn1.mp k1
    obtain ⟨A, g, hg, hd, hr⟩ := final b13 (by
      rw [v16, v15, v14] at hc1
      linear_combination hc1)
    refine ⟨A, g, start ?_, hd, hr⟩
    refine bind_step (a := some h6) ?_ hg
    rw [if_neg (by simpa using k1)]
  · by_cases k2 : n2 = 0
    · left
      have hc2 : val c2 = 0 := hn2.mp k2
      obtain ⟨A, g, hg, hd, hr⟩ := final b20 (by
        rw [v17, v15, v14] at hc2
        rw [v20]
        linear_combination val h6 ^ 2 * val v * val_SQRTM1 - hc2)
      refine ⟨A, g, start ?_, hd, hr⟩
      refine bind_step (a := some h7) ?_ hg
      rw [if_pos k1]
      refine bind_step e17 <| bind_step e19 ?_
      rw [if_neg (by simpa using k2)]
      exact bind_step e20 rfl
    · right
      refine ⟨start ?_, ?_⟩
      · refine bind_step (a := none) ?_ rfl
        rw [if_pos k1]
        refine bind_step e17 <| bind_step e19 ?_
        rw [if_pos k2]
      · rintro ⟨x, y'⟩ ⟨p1, p2, -⟩
        simp only at p2
        rw [← v1] at p2
        subst p2
        rw [onCurve_iff', ← hv, ← hu] at p1
        rcases candidate p1 with h | h
        · refine k1 (hn1.mpr ?_)
          rw [v16, hx2, h]; ring
        · refine k2 (hn2.mpr ?_)
          rw [v17, hx2, h]; ring

end CryptoPure.Ed
