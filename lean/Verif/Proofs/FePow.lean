import Verif.Proofs.FeStore
import Mathlib.FieldTheory.Finite.Basic

/-! # Inversion and the square-root exponent -/

namespace CryptoPure.Model.Fe
open SL Spec

/-- `f` represents `z` to the power `e`, with small limbs. -/
def Pw (z : F) (e : Nat) (f : Fe) : Prop := B 1 f ∧ val f = z ^ e

theorem bind_step {α β : Type} {x : Option α} {a : α} {f : α → Option β} {y : Option β} (h : x = some a) (h' : f a = y) :
    (x >>= f) = y := by rw [h]; exact h'

theorem sq_pw (m : Mode) {z : F} {e : Nat} {f : Fe} (h : Pw z e f) : ∃ g, sq m f = some g ∧ Pw z (2 * e) g := by
  obtain ⟨g, h1, h2, h3⟩ := sq_spec m (h.1.mono (by norm_num))
  exact ⟨g, h1, h2, by rw [h3, h.2, ← pow_add]; congr 1; ring⟩

theorem mul_pw (m : Mode) {z : F} {d e : Nat} {f g : Fe} (hf : Pw z d f) (hg : Pw z e g) :
    ∃ h, mul m f g = some h ∧ Pw z (d + e) h := by
  obtain ⟨g, h1, h2, h3⟩ := mul_spec m (hf.1.mono (by norm_num)) (hg.1.mono (by norm_num))
  exact ⟨g, h1, h2, by rw [h3, hf.2, hg.2, ← pow_add]⟩

theorem sqm_aux (m : Mode) {z : F} (l : List Nat) {e : Nat} {f : Fe} (h : Pw z e f) :
    ∃ g, l.foldlM (fun f _ => sq m f) f = some g ∧ Pw z (2 ^ l.length * e) g := by
  induction l generalizing e f with
  | nil => exact ⟨f, rfl, by simpa using h⟩
  | cons a l ih =>
    obtain ⟨g, h1, h2⟩ := sq_pw m h
    obtain ⟨g', h3, h4⟩ := ih h2
    refine ⟨g', ?_, ?_⟩
    · rw [List.foldlM_cons, h1]
      exact h3
    · rw [List.length_cons, pow_succ, mul_assoc]
      exact h4

theorem sqm_pw (m : Mode) {z : F} {e : Nat} {f : Fe} (i : Nat) (h : Pw z e f) :
    ∃ g, squareMany m f i = some g ∧ Pw z (2 ^ (i - 1) * e) g := by
  have := sqm_aux m (List.range' 1 (i - 1)) h
  rwa [List.length_range'] at this

theorem invert_pow (m : Mode) {z : Fe} (hz : B 1 z) : ∃ g, invert m z = some g ∧ B 1 g ∧ val g = val z ^ (2 ^ 255 - 21) := by
  have z0 : Pw (val z) 1 z := ⟨hz, (pow_one _).symm⟩
  obtain ⟨a1, e1, p1⟩ := sq_pw m z0
  obtain ⟨a2, e2, p2⟩ := sq_pw m p1
  obtain ⟨a3, e3, p3⟩ := sq_pw m p2
  obtain ⟨a4, e4, p4⟩ := mul_pw m p3 z0
  obtain ⟨a5, e5, p5⟩ := mul_pw m p1 p4
  obtain ⟨a6, e6, p6⟩ := sq_pw m p5
  obtain ⟨a7, e7, p7⟩ := mul_pw m p4 p6
  obtain ⟨a8, e8, p8⟩ := sq_pw m p7
  obtain ⟨a9, e9, p9⟩ := sqm_pw m 5 p8
  obtain ⟨a10, e10, p10⟩ := mul_pw m p7 p9
  obtain ⟨a11, e11, p11⟩ := sq_pw m p10
  obtain ⟨a12, e12, p12⟩ := sqm_pw m 10 p11
  obtain ⟨a13, e13, p13⟩ := mul_pw m p12 p10
  obtain ⟨a14, e14, p14⟩ := sq_pw m p13
  obtain ⟨a15, e15, p15⟩ := sqm_pw m 20 p14
  obtain ⟨a16, e16, p16⟩ := mul_pw m p13 p15
  obtain ⟨a17, e17, p17⟩ := sqm_pw m 11 p16
  obtain ⟨a18, e18, p18⟩ := mul_pw m p10 p17
  obtain ⟨a19, e19, p19⟩ := sq_pw m p18
  obtain ⟨a20, e20, p20⟩ := sqm_pw m 50 p19
  obtain ⟨a21, e21, p21⟩ := mul_pw m p20 p18
  obtain ⟨a22, e22, p22⟩ := sq_pw m p21
  obtain ⟨a23, e23, p23⟩ := sqm_pw m 100 p22
  obtain ⟨a24, e24, p24⟩ := mul_pw m p21 p23
  obtain ⟨a25, e25, p25⟩ := sqm_pw m 51 p24
  obtain ⟨a26, e26, p26⟩ := mul_pw m p18 p25
  obtain ⟨a27, e27, p27⟩ := sqm_pw m 6 p26
  obtain ⟨a28, e28, p28⟩ := mul_pw m p27 p5
  refine ⟨a28, ?_, p28.1, ?_⟩
  · unfold invert
    exact bind_step e1 <| bind_step e2 <| bind_step e3 <| bind_step e4 <| bind_step e5 <| bind_step e6 <| bind_step e7 <| bind_step e8 <| bind_step e9 <| bind_step e10 <| bind_step e11 <| bind_step e12 <| bind_step e13 <| bind_step e14 <| bind_step e15 <| bind_step e16 <| bind_step e17 <| bind_step e18 <| bind_step e19 <| bind_step e20 <| bind_step e21 <| bind_step e22 <| bind_step e23 <| bind_step e24 <| bind_step e25 <| bind_step e26 <| bind_step e27 e28
  · rw [p28.2]
    norm_num

theorem invert_spec (m : Mode) {z : Fe} (hz : B 1 z) : ∃ g, invert m z = some g ∧ B 1 g ∧ val g = (val z)⁻¹ := by
  obtain ⟨g, h1, h2, h3⟩ := invert_pow m hz
  refine ⟨g, h1, h2, ?_⟩
  rw [h3]
  by_cases h0 : val z = 0
  · rw [h0, inv_zero, zero_pow (by norm_num)]
  · refine eq_inv_of_mul_eq_one_left ?_
    rw [← pow_succ, show 2 ^ 255 - 21 + 1 = p25519 - 1 by norm_num [p25519]]
    exact ZMod.pow_card_sub_one_eq_one h0

theorem pow22523_spec (m : Mode) {z : Fe} (hz : B 1 z) :
    ∃ g, pow22523 m z = some g ∧ B 1 g ∧ val g = val z ^ (2 ^ 252 - 3) := by
  have z0 : Pw (val z) 1 z := ⟨hz, (pow_one _).symm⟩
  obtain ⟨a1, e1, p1⟩ := sq_pw m z0
  obtain ⟨a2, e2, p2⟩ := sq_pw m p1
  obtain ⟨a3, e3, p3⟩ := sq_pw m p2
  obtain ⟨a4, e4, p4⟩ := mul_pw m p3 z0
  obtain ⟨a5, e5, p5⟩ := mul_pw m p1 p4
  obtain ⟨a6, e6, p6⟩ := sq_pw m p5
  obtain ⟨a7, e7, p7⟩ := mul_pw m p6 p4
  obtain ⟨a8, e8, p8⟩ := sq_pw m p7
  obtain ⟨a9, e9, p9⟩ := sqm_pw m 5 p8
  obtain ⟨a10, e10, p10⟩ := mul_pw m p7 p9
  obtain ⟨a11, e11, p11⟩ := sq_pw m p10
  obtain ⟨a12, e12, p12⟩ := sqm_pw m 10 p11
  obtain ⟨a13, e13, p13⟩ := mul_pw m p12 p10
  obtain ⟨a14, e14, p14⟩ := sq_pw m p13
  obtain ⟨a15, e15, p15⟩ := sqm_pw m 20 p14
  obtain ⟨a16, e16, p16⟩ := mul_pw m p13 p15
  obtain ⟨a17, e17, p17⟩ := sqm_pw m 11 p16
  obtain ⟨a18, e18, p18⟩ := mul_pw m p10 p17
  obtain ⟨a19, e19, p19⟩ := sq_pw m p18
  obtain ⟨a20, e20, p20⟩ := sqm_pw m 50 p19
  obtain ⟨a21, e21, p21⟩ := mul_pw m p20 p18
  obtain ⟨a22, e22, p22⟩ := sq_pw m p21
  obtain ⟨a23, e23, p23⟩ := sqm_pw m 100 p22
  obtain ⟨a24, e24, p24⟩ := mul_pw m p21 p23
  obtain ⟨a25, e25, p25⟩ := sqm_pw m 51 p24
  obtain ⟨a26, e26, p26⟩ := mul_pw m p18 p25
  obtain ⟨a27, e27, p27⟩ := sq_pw m p26
  obtain ⟨a28, e28, p28⟩ := sq_pw m p27
  obtain ⟨a29, e29, p29⟩ := mul_pw m z0 p28
  refine ⟨a29, ?_, p29.1, ?_⟩
  · unfold pow22523
    exact bind_step e1 <| bind_step e2 <| bind_step e3 <| bind_step e4 <| bind_step e5 <| bind_step e6 <| bind_step e7 <| bind_step e8 <| bind_step e9 <| bind_step e10 <| bind_step e11 <| bind_step e12 <| bind_step e13 <| bind_step e14 <| bind_step e15 <| bind_step e16 <| bind_step e17 <| bind_step e18 <| bind_step e19 <| bind_step e20 <| bind_step e21 <| bind_step e22 <| bind_step e23 <| bind_step e24 <| bind_step e25 <| bind_step e26 <| bind_step e27 <| bind_step e28 e29
  · rw [p29.2]
    norm_num

end CryptoPure.Model.Fe
