import Verif.Model.Ed25519
import Verif.Proofs.EdGroup
import Verif.Proofs.FePow

/-! # The point operations of ed25519.rs compute the group operations -/

namespace CryptoPure.Ed
open Model Model.Fe Model.Ed25519 Spec Spec.Ed25519 Edwards

/-- Coordinates of a point. -/
abbrev px (P : Pt25519) : F := P.1.1
abbrev py (P : Pt25519) : F := P.1.2

structure RepP2 (p : GeP2) (P : Pt25519) : Prop where
  bx : Fe.B 1 p.x
  by' : Fe.B 1 p.y
  bz : Fe.B 1 p.z
  z0 : val p.z ≠ 0
  x : val p.x = px P * val p.z
  y : val p.y = py P * val p.z

structure RepP3 (p : GeP3) (P : Pt25519) : Prop where
  bx : Fe.B 1 p.x
  by' : Fe.B 1 p.y
  bz : Fe.B 1 p.z
  bt : Fe.B 1 p.t
  z0 : val p.z ≠ 0
  x : val p.x = px P * val p.z
  y : val p.y = py P * val p.z
  t : val p.t = px P * py P * val p.z

structure RepP1p1 (p : GeP1p1) (P : Pt25519) : Prop where
  bx : Fe.B 3 p.x
  by' : Fe.B 3 p.y
  bz : Fe.B 3 p.z
  bt : Fe.B 3 p.t
  z0 : val p.z ≠ 0
  t0 : val p.t ≠ 0
  x : val p.x = px P * val p.z
  y : val p.y = py P * val p.t

structure RepPre (q : GePrecomp) (Q : Pt25519) : Prop where
  b1 : Fe.B 1 q.yplusx
  b2 : Fe.B 1 q.yminusx
  b3 : Fe.B 1 q.xy2d
  p : val q.yplusx = py Q + px Q
  m : val q.yminusx = py Q - px Q
  t : val q.xy2d = 2 * d * px Q * py Q

structure RepCached (q : GeCached) (Q : Pt25519) : Prop where
  b1 : Fe.B 3 q.yplusx
  b2 : Fe.B 3 q.yminusx
  b3 : Fe.B 1 q.z
  b4 : Fe.B 1 q.t2d
  z0 : val q.z ≠ 0
  p : val q.yplusx = (py Q + px Q) * val q.z
  m : val q.yminusx = (py Q - px Q) * val q.z
  t : val q.t2d = 2 * d * px Q * py Q * val q.z

theorem den (P Q : Pt25519) : 1 + d * px P * px Q * py P * py Q ≠ 0 ∧ 1 - d * px P * px Q * py P * py Q ≠ 0 := by
  obtain ⟨i, hi⟩ := hyp.sqrtm1
  exact den_add hyp.two hi d_nonsq P.2 Q.2

theorem two_F : (2 : F) ≠ 0 := Ladder.two_ne

theorem px_add (P Q : Pt25519) : px (P + Q) = (px P * py Q + px Q * py P) / (1 + d * px P * px Q * py P * py Q) := rfl
theorem py_add (P Q : Pt25519) : py (P + Q) = (py P * py Q + px P * px Q) / (1 - d * px P * px Q * py P * py Q) := rfl
theorem px_neg (P : Pt25519) : px (-P) = -px P := rfl
theorem py_neg (P : Pt25519) : py (-P) = py P := rfl

/-- The addition formulas, with a common factor `k`. -/
theorem rep_of_sum {r : GeP1p1} {P Q : Pt25519} {k : F} (hk : k ≠ 0) (bx : Fe.B 3 r.x) (by' : Fe.B 3 r.y) (bz : Fe.B 3 r.z)
    (bt : Fe.B 3 r.t) (hx : val r.x = k * (px P * py Q + px Q * py P)) (hy : val r.y = k * (py P * py Q + px P * px Q))
    (hz : val r.z = k * (1 + d * px P * px Q * py P * py Q)) (ht : val r.t = k * (1 - d * px P * px Q * py P * py Q)) :
    RepP1p1 r (P + Q) := by
  obtain ⟨d1, d2⟩ := den P Q
  refine ⟨bx, by', bz, bt, ?_, ?_, ?_, ?_⟩
  · rw [hz]; exact mul_ne_zero hk d1
  · rw [ht]; exact mul_ne_zero hk d2
  · rw [hx, hz, px_add, div_mul_eq_mul_div, eq_div_iff d1]; ring
  · rw [hy, ht, py_add, div_mul_eq_mul_div, eq_div_iff d2]; ring

theorem geAdd_spec (m : Mode) {p : GeP3} {q : GeCached} {P Q : Pt25519} (hp : RepP3 p P) (hq : RepCached q Q) :
    ∃ r, geAdd m p q = some r ∧ RepP1p1 r (P + Q) := by
  obtain ⟨a1, e1, b1, v1⟩ := add_spec m hp.by' hp.bx (by norm_num)
  obtain ⟨a2, e2, b2, v2⟩ := sub_spec m hp.by' hp.bx (by norm_num)
  obtain ⟨a3, e3, b3, v3⟩ := mul_spec m (b1.mono (by norm_num)) hq.b1
  obtain ⟨a4, e4, b4, v4⟩ := mul_spec m (b2.mono (by norm_num)) hq.b2
  obtain ⟨a5, e5, b5, v5⟩ := mul_spec m (hq.b4.mono (by norm_num)) (hp.bt.mono (by norm_num))
  obtain ⟨a6, e6, b6, v6⟩ := mul_spec m (hp.bz.mono (by norm_num)) (hq.b3.mono (by norm_num))
  obtain ⟨a7, e7, b7, v7⟩ := add_spec m b6 b6 (by norm_num)
  obtain ⟨a8, e8, b8, v8⟩ := sub_spec m b3 b4 (by norm_num)
  obtain ⟨a9, e9, b9, v9⟩ := add_spec m b4 b3 (by norm_num)
  obtain ⟨a10, e10, b10, v10⟩ := add_spec m b7 b5 (by norm_num)
  obtain ⟨a11, e11, b11, v11⟩ := sub_spec m b7 b5 (by norm_num)
  refine ⟨⟨a8, a9, a10, a11⟩, ?_, ?_⟩
  · exact bind_step e1 <| bind_step e2 <| bind_step e3 <| bind_step e4 <| bind_step e5 <| bind_step e6 <| bind_step e7 <|
      bind_step e8 <| bind_step e9 <| bind_step e10 <| bind_step e11 rfl
  · refine rep_of_sum (k := 2 * val p.z * val q.z) (mul_ne_zero (mul_ne_zero two_F hp.z0) hq.z0) (b8.mono (by norm_num))
      (b9.mono (by norm_num)) (b10.mono (by norm_num)) (b11.mono (by norm_num)) ?_ ?_ ?_ ?_
    · rw [v8, v3, v4, v1, v2, hp.x, hp.y, hq.p, hq.m]; ring
    · rw [v9, v3, v4, v1, v2, hp.x, hp.y, hq.p, hq.m]; ring
    · rw [v10, v7, v6, v5, hp.t, hq.t]; ring
    · rw [v11, v7, v6, v5, hp.t, hq.t]; ring

theorem geSub_spec (m : Mode) {p : GeP3} {q : GeCached} {P Q : Pt25519} (hp : RepP3 p P) (hq : RepCached q Q) :
    ∃ r, geSub m p q = some r ∧ RepP1p1 r (P + -Q) := by
  obtain ⟨a1, e1, b1, v1⟩ := add_spec m hp.by' hp.bx (by norm_num)
  obtain ⟨a2, e2, b2, v2⟩ := sub_spec m hp.by' hp.bx (by norm_num)
  obtain ⟨a3, e3, b3, v3⟩ := mul_spec m (b1.mono (by norm_num)) hq.b2
  obtain ⟨a4, e4, b4, v4⟩ := mul_spec m (b2.mono (by norm_num)) hq.b1
  obtain ⟨a5, e5, b5, v5⟩ := mul_spec m (hq.b4.mono (by norm_num)) (hp.bt.mono (by norm_num))
  obtain ⟨a6, e6, b6, v6⟩ := mul_spec m (hp.bz.mono (by norm_num)) (hq.b3.mono (by norm_num))
  obtain ⟨a7, e7, b7, v7⟩ := add_spec m b6 b6 (by norm_num)
  obtain ⟨a8, e8, b8, v8⟩ := sub_spec m b3 b4 (by norm_num)
  obtain ⟨a9, e9, b9, v9⟩ := add_spec m b4 b3 (by norm_num)
  obtain ⟨a10, e10, b10, v10⟩ := sub_spec m b7 b5 (by norm_num)
  obtain ⟨a11, e11, b11, v11⟩ := add_spec m b5 b7 (by norm_num)
  refine ⟨⟨a8, a9, a10, a11⟩, ?_, ?_⟩
  · exact bind_step e1 <| bind_step e2 <| bind_step e3 <| bind_step e4 <| bind_step e5 <| bind_step e6 <| bind_step e7 <|
      bind_step e8 <| bind_step e9 <| bind_step e10 <| bind_step e11 rfl
  · refine rep_of_sum (k := 2 * val p.z * val q.z) (mul_ne_zero (mul_ne_zero two_F hp.z0) hq.z0) (b8.mono (by norm_num))
      (b9.mono (by norm_num)) (b10.mono (by norm_num)) (b11.mono (by norm_num)) ?_ ?_ ?_ ?_
    · rw [v8, v3, v4, v1, v2, hp.x, hp.y, hq.p, hq.m, px_neg, py_neg]; ring
    · rw [v9, v3, v4, v1, v2, hp.x, hp.y, hq.p, hq.m, px_neg, py_neg]; ring
    · rw [v10, v7, v6, v5, hp.t, hq.t, px_neg, py_neg]; ring
    · rw [v11, v7, v6, v5, hp.t, hq.t, px_neg, py_neg]; ring

theorem geMadd_spec (m : Mode) {p : GeP3} {q : GePrecomp} {P Q : Pt25519} (hp : RepP3 p P) (hq : RepPre q Q) :
    ∃ r, geMadd m p q = some r ∧ RepP1p1 r (P + Q) := by
  obtain ⟨a1, e1, b1, v1⟩ := add_spec m hp.by' hp.bx (by norm_num)
  obtain ⟨a2, e2, b2, v2⟩ := sub_spec m hp.by' hp.bx (by norm_num)
  obtain ⟨a3, e3, b3, v3⟩ := mul_spec m (b1.mono (by norm_num)) (hq.b1.mono (by norm_num))
  obtain ⟨a4, e4, b4, v4⟩ := mul_spec m (b2.mono (by norm_num)) (hq.b2.mono (by norm_num))
  obtain ⟨a5, e5, b5, v5⟩ := mul_spec m (hq.b3.mono (by norm_num)) (hp.bt.mono (by norm_num))
  obtain ⟨a7, e7, b7, v7⟩ := add_spec m hp.bz hp.bz (by norm_num)
  obtain ⟨a8, e8, b8, v8⟩ := sub_spec m b3 b4 (by norm_num)
  obtain ⟨a9, e9, b9, v9⟩ := add_spec m b4 b3 (by norm_num)
  obtain ⟨a10, e10, b10, v10⟩ := add_spec m b7 b5 (by norm_num)
  obtain ⟨a11, e11, b11, v11⟩ := sub_spec m b7 b5 (by norm_num)
  refine ⟨⟨a8, a9, a10, a11⟩, ?_, ?_⟩
  · exact bind_step e1 <| bind_step e2 <| bind_step e3 <| bind_step e4 <| bind_step e5 <| bind_step e7 <|
      bind_step e8 <| bind_step e9 <| bind_step e10 <| bind_step e11 rfl
  · refine rep_of_sum (k := 2 * val p.z) (mul_ne_zero two_F hp.z0) (b8.mono (by norm_num))
      (b9.mono (by norm_num)) (b10.mono (by norm_num)) (b11.mono (by norm_num)) ?_ ?_ ?_ ?_
    · rw [v8, v3, v4, v1, v2, hp.x, hp.y, hq.p, hq.m]; ring
    · rw [v9, v3, v4, v1, v2, hp.x, hp.y, hq.p, hq.m]; ring
    · rw [v10, v7, v5, hp.t, hq.t]; ring
    · rw [v11, v7, v5, hp.t, hq.t]; ring

theorem geMsub_spec (m : Mode) {p : GeP3} {q : GePrecomp} {P Q : Pt25519} (hp : RepP3 p P) (hq : RepPre q Q) :
    ∃ r, geMsub m p q = some r ∧ RepP1p1 r (P + -Q) := by
  obtain ⟨a1, e1, b1, v1⟩ := add_spec m hp.by' hp.bx (by norm_num)
  obtain ⟨a2, e2, b2, v2⟩ := sub_spec m hp.by' hp.bx (by norm_num)
  obtain ⟨a3, e3, b3, v3⟩ := mul_spec m (b1.mono (by norm_num)) (hq.b2.mono (by norm_num))
  obtain ⟨a4, e4, b4, v4⟩ := mul_spec m (b2.mono (by norm_num)) (hq.b1.mono (by norm_num))
  obtain ⟨a5, e5, b5, v5⟩ := mul_spec m (hq.b3.mono (by norm_num)) (hp.bt.mono (by norm_num))
  obtain ⟨a7, e7, b7, v7⟩ := add_spec m hp.bz hp.bz (by norm_num)
  obtain ⟨a8, e8, b8, v8⟩ := sub_spec m b3 b4 (by norm_num)
  obtain ⟨a9, e9, b9, v9⟩ := add_spec m b4 b3 (by norm_num)
  obtain ⟨a10, e10, b10, v10⟩ := sub_spec m b7 b5 (by norm_num)
  obtain ⟨a11, e11, b11, v11⟩ := add_spec m b5 b7 (by norm_num)
  refine ⟨⟨a8, a9, a10, a11⟩, ?_, ?_⟩
  · exact bind_step e1 <| bind_step e2 <| bind_step e3 <| bind_step e4 <| bind_step e5 <| bind_step e7 <|
      bind_step e8 <| bind_step e9 <| bind_step e10 <| bind_step e11 rfl
  · refine rep_of_sum (k := 2 * val p.z) (mul_ne_zero two_F hp.z0) (b8.mono (by norm_num))
      (b9.mono (by norm_num)) (b10.mono (by norm_num)) (b11.mono (by norm_num)) ?_ ?_ ?_ ?_
    · rw [v8, v3, v4, v1, v2, hp.x, hp.y, hq.p, hq.m, px_neg, py_neg]; ring
    · rw [v9, v3, v4, v1, v2, hp.x, hp.y, hq.p, hq.m, px_neg, py_neg]; ring
    · rw [v10, v7, v5, hp.t, hq.t, px_neg, py_neg]; ring
    · rw [v11, v7, v5, hp.t, hq.t, px_neg, py_neg]; ring

theorem p2Dbl_spec (m : Mode) {p : GeP2} {P : Pt25519} (hp : RepP2 p P) : ∃ r, p2Dbl m p = some r ∧ RepP1p1 r (P + P) := by
  obtain ⟨a1, e1, b1, v1⟩ := sq_spec m (hp.bx.mono (by norm_num))
  obtain ⟨a2, e2, b2, v2⟩ := sq_spec m (hp.by'.mono (by norm_num))
  obtain ⟨a3, e3, b3, v3⟩ := sq2_spec m (hp.bz.mono (by norm_num))
  obtain ⟨a4, e4, b4, v4⟩ := add_spec m hp.bx hp.by' (by norm_num)
  obtain ⟨a5, e5, b5, v5⟩ := sq_spec m (b4.mono (by norm_num))
  obtain ⟨a6, e6, b6, v6⟩ := add_spec m b2 b1 (by norm_num)
  obtain ⟨a7, e7, b7, v7⟩ := sub_spec m b2 b1 (by norm_num)
  obtain ⟨a8, e8, b8, v8⟩ := sub_spec m b5 b6 (by norm_num)
  obtain ⟨a9, e9, b9, v9⟩ := sub_spec m b3 b7 (by norm_num)
  refine ⟨⟨a8, a6, a7, a9⟩, ?_, ?_⟩
  · exact bind_step e1 <| bind_step e2 <| bind_step e3 <| bind_step e4 <| bind_step e5 <| bind_step e6 <| bind_step e7 <|
      bind_step e8 <| bind_step e9 rfl
  · have hc : -px P ^ 2 + py P ^ 2 = 1 + d * px P ^ 2 * py P ^ 2 := P.2
    refine rep_of_sum (k := val p.z ^ 2) (pow_ne_zero _ hp.z0) (b8.mono (by norm_num))
      (b6.mono (by norm_num)) (b7.mono (by norm_num)) (b9.mono (by norm_num)) ?_ ?_ ?_ ?_
    · simp only
      rw [v8, v5, v4, v6, v1, v2, hp.x, hp.y]; ring
    · simp only
      rw [v6, v1, v2, hp.x, hp.y]; ring
    · simp only
      rw [v7, v1, v2, hp.x, hp.y]; linear_combination val p.z ^ 2 * hc
    · simp only
      rw [v9, v3, v7, v1, v2, hp.x, hp.y]; linear_combination -val p.z ^ 2 * hc

theorem RepP3.toP2 {p : GeP3} {P : Pt25519} (h : RepP3 p P) : RepP2 (p3ToP2 p) P := ⟨h.bx, h.by', h.bz, h.z0, h.x, h.y⟩

theorem p3Dbl_spec (m : Mode) {p : GeP3} {P : Pt25519} (hp : RepP3 p P) : ∃ r, p3Dbl m p = some r ∧ RepP1p1 r (P + P) :=
  p2Dbl_spec m hp.toP2

theorem p1p1ToP3_spec (m : Mode) {p : GeP1p1} {P : Pt25519} (hp : RepP1p1 p P) : ∃ r, p1p1ToP3 m p = some r ∧ RepP3 r P := by
  obtain ⟨a1, e1, b1, v1⟩ := mul_spec m hp.bx hp.bt
  obtain ⟨a2, e2, b2, v2⟩ := mul_spec m hp.by' hp.bz
  obtain ⟨a3, e3, b3, v3⟩ := mul_spec m hp.bz hp.bt
  obtain ⟨a4, e4, b4, v4⟩ := mul_spec m hp.bx hp.by'
  refine ⟨⟨a1, a2, a3, a4⟩, bind_step e1 <| bind_step e2 <| bind_step e3 <| bind_step e4 rfl, b1, b2, b3, b4, ?_, ?_, ?_, ?_⟩
  · simp only; rw [v3]; exact mul_ne_zero hp.z0 hp.t0
  · simp only; rw [v1, v3, hp.x]; ring
  · simp only; rw [v2, v3, hp.y]; ring
  · simp only; rw [v4, v3, hp.x, hp.y]; ring

theorem p1p1ToP2_spec (m : Mode) {p : GeP1p1} {P : Pt25519} (hp : RepP1p1 p P) : ∃ r, p1p1ToP2 m p = some r ∧ RepP2 r P := by
  obtain ⟨a1, e1, b1, v1⟩ := mul_spec m hp.bx hp.bt
  obtain ⟨a2, e2, b2, v2⟩ := mul_spec m hp.by' hp.bz
  obtain ⟨a3, e3, b3, v3⟩ := mul_spec m hp.bz hp.bt
  refine ⟨⟨a1, a2, a3⟩, bind_step e1 <| bind_step e2 <| bind_step e3 rfl, b1, b2, b3, ?_, ?_, ?_⟩
  · simp only; rw [v3]; exact mul_ne_zero hp.z0 hp.t0
  · simp only; rw [v1, v3, hp.x]; ring
  · simp only; rw [v2, v3, hp.y]; ring

theorem p2Zero_rep : RepP2 p2Zero 0 := by
  refine ⟨zero_B, one_B, one_B, ?_, ?_, ?_⟩ <;> simp only [p2Zero, val_one, val_zero]
  · exact one_ne_zero
  · show (0 : F) = 0 * 1; ring
  · show (1 : F) = 1 * 1; ring

theorem p3Zero_rep : RepP3 p3Zero 0 := by
  refine ⟨zero_B, one_B, one_B, zero_B, ?_, ?_, ?_, ?_⟩ <;> simp only [p3Zero, val_one, val_zero]
  · exact one_ne_zero
  · show (0 : F) = 0 * 1; ring
  · show (1 : F) = 1 * 1; ring
  · show (0 : F) = 0 * 1 * 1; ring

/-! ## Constants -/

/-- Limb value as a natural number below `p`, for kernel computation. -/
def natVal (f : List Int) : Nat := ((f.zip wts).foldl (fun (a : Int) (x : Int × Int) => a + x.1 * x.2) 0 % 57896044618658097711785492504343953926634992332820282019728792003956564819949).toNat

theorem natVal_spec {n : Nat} {f : Fe} (h : Fe.B n f) : ((natVal f : Nat) : F) = val f := by
  obtain ⟨f0, f1, f2, f3, f4, f5, f6, f7, f8, f9, rfl⟩ := h.elim
  unfold natVal val
  have hp : (57896044618658097711785492504343953926634992332820282019728792003956564819949 : Int) = (p25519 : Int) := by
    rw [p25519_eq]; rfl
  rw [hp]
  have : ∀ x : Int, (((x % (p25519 : Int)).toNat : Nat) : F) = (x : F) := by
    intro x
    have h0 : 0 ≤ x % (p25519 : Int) := Int.emod_nonneg _ (by rw [p25519_eq]; norm_num)
    have : (((x % (p25519 : Int)).toNat : Nat) : F) = (((x % (p25519 : Int)).toNat : Int) : F) := by push_cast; rfl
    rw [this, Int.toNat_of_nonneg h0, ZMod.intCast_mod]
  rw [this, valZ_explicit]
  congr 1
  simp only [wts, List.zip_cons_cons, List.foldl_cons, List.zip_nil_left, List.foldl_nil]
  ring

/-- Decidable form of `Fe.B 1`. -/
def boundOK (f : List Int) : Bool := f.length == 10 && (List.range 10).all fun i =>
  decide (-(tB i) ≤ f.getD i 0) && decide (f.getD i 0 ≤ tB i)

theorem boundOK_spec {f : Fe} (h : boundOK f = true) : Fe.B 1 f := by
  unfold boundOK at h
  simp only [Bool.and_eq_true, beq_iff_eq, List.all_eq_true, List.mem_range, decide_eq_true_eq] at h
  refine ⟨h.1, fun i hi => ?_⟩
  have := h.2 i hi
  unfold SL.In
  push_cast
  constructor <;> simp only [one_mul] <;> omega

theorem D_B : Fe.B 1 D := boundOK_spec (by decide +kernel)
theorem D2_B : Fe.B 1 D2 := boundOK_spec (by decide +kernel)
theorem SQRTM1_B : Fe.B 1 SQRTM1 := boundOK_spec (by decide +kernel)

theorem val_D : val D = d := by
  rw [← natVal_spec D_B, d_val, show natVal D = 37095705934669439343138083508754565189542113879843219016388785533085940283555 by decide +kernel]
  rfl

theorem val_D2 : val D2 = 2 * d := by
  rw [← natVal_spec D2_B, d_val]
  have h : ((natVal D2 : Nat) : F) = ((2 * 37095705934669439343138083508754565189542113879843219016388785533085940283555 : Nat) : F) :=
    cast_lit (by decide +kernel)
  rw [h]
  push_cast
  rfl

theorem val_SQRTM1 : val SQRTM1 ^ 2 = -1 := by
  rw [← natVal_spec SQRTM1_B, show natVal SQRTM1 = 19681161376707505956807079304988542015446066515923890162744021073123829784752 by decide +kernel]
  exact sqrtm1_sq

theorem p3ToCached_spec (m : Mode) {p : GeP3} {P : Pt25519} (hp : RepP3 p P) : ∃ r, p3ToCached m p = some r ∧ RepCached r P := by
  obtain ⟨a1, e1, b1, v1⟩ := add_spec m hp.by' hp.bx (by norm_num)
  obtain ⟨a2, e2, b2, v2⟩ := sub_spec m hp.by' hp.bx (by norm_num)
  obtain ⟨a3, e3, b3, v3⟩ := mul_spec m (hp.bt.mono (by norm_num)) (D2_B.mono (by norm_num))
  refine ⟨⟨a1, a2, p.z, a3⟩, bind_step e1 <| bind_step e2 <| bind_step e3 rfl, b1.mono (by norm_num), b2.mono (by norm_num),
    hp.bz, b3, hp.z0, ?_, ?_, ?_⟩
  · simp only; rw [v1, hp.x, hp.y]; ring
  · simp only; rw [v2, hp.x, hp.y]; ring
  · simp only; rw [v3, val_D2, hp.t]; ring

end CryptoPure.Ed
