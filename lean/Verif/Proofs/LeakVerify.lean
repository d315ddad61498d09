import Verif.Proofs.LeakCurve
import Verif.Leak.EdVerify

/-! The recorded `verify` computes what the model computes. -/

namespace CryptoPure.Leak

theorem bnd {α β : Type} {o : Option α} {f g : α → Option β} (h : ∀ a, f a = g a) : o.bind f = o.bind g := by
  rw [funext h]

namespace Fe

theorem verify32_val (x y : Bytes) : (verify32 x y).val = some (Model.Fe.verify32 x y) := by
  unfold verify32 Model.Fe.verify32
  rw [val_bind, val_loop_total _ (fun acc p => acc ||| (p.1 ^^^ p.2).setWidth 32) (fun _ _ => rfl)]
  rfl

theorem isNonzero_val (f : Model.Fe) : (isNonzero f).val = Model.Fe.isNonzero .release f := by
  unfold isNonzero Model.Fe.isNonzero
  simp only [val_bind, toBytes_val, verify32_val, Option.bind_eq_bind]

theorem pow22523_val (z : Model.Fe) : (pow22523 z).val = Model.Fe.pow22523 .release z := by
  unfold pow22523 Model.Fe.pow22523
  simp only [val_bind, mul_val, sq_val, squareMany_val, Option.bind_eq_bind]

end Fe

namespace Ed25519
open Fe
open Model.Ed25519 (GeP2 GeP3 GeP1p1 GePrecomp GeCached)

theorem geAdd_val (p : GeP3) (q : GeCached) : (geAdd p q).val = Model.Ed25519.geAdd .release p q := by
  unfold geAdd Model.Ed25519.geAdd
  simp only [val_bind, add_val, sub_val, mul_val, val_pure, Option.bind_eq_bind]

theorem geSub_val (p : GeP3) (q : GeCached) : (geSub p q).val = Model.Ed25519.geSub .release p q := by
  unfold geSub Model.Ed25519.geSub
  simp only [val_bind, add_val, sub_val, mul_val, val_pure, Option.bind_eq_bind]

theorem geMsub_val (p : GeP3) (q : GePrecomp) : (geMsub p q).val = Model.Ed25519.geMsub .release p q := by
  unfold geMsub Model.Ed25519.geMsub
  simp only [val_bind, add_val, sub_val, mul_val, val_pure, Option.bind_eq_bind]

theorem p3ToCached_val (p : GeP3) : (p3ToCached p).val = Model.Ed25519.p3ToCached .release p := by
  unfold p3ToCached Model.Ed25519.p3ToCached
  simp only [val_bind, add_val, sub_val, mul_val, val_pure, Option.bind_eq_bind]

theorem slideCarry_val : ∀ l : List Int, (slideCarry l).val = some (Model.Ed25519.slideCarry l)
  | [] => rfl
  | x :: xs => by
    unfold slideCarry Model.Ed25519.slideCarry
    simp only [val_bind, val_branch, Option.bind_some]
    by_cases h : x = 0
    · simp [h]
    · simp [h, slideCarry_val xs]

theorem slideInner_val (i : Nat) : ∀ (bs : List Nat) (r : List Int),
    (slideInner i bs r).val = Model.Ed25519.slideInner .release i bs r
  | [], r => rfl
  | b :: bs, r => by
    unfold slideInner Model.Ed25519.slideInner
    simp only [val_bind, val_branch, Option.bind_some]
    by_cases h1 : i + b < 256
    · simp only [h1, decide_true, if_true, val_bind, val_get, val_branch, Option.bind_some]
      by_cases h2 : r.getD (i + b) 0 ≠ 0
      · rw [if_pos (decide_eq_true h2), if_pos h2]
        simp only [val_bind, val_get, val_op, val_branch, Option.bind_some, Option.bind_eq_bind]
        refine bnd fun s => ?_
        by_cases h3 : s ≤ 15
        · simp only [h3, decide_true, if_true, val_bind, val_put, Option.bind_some, slideInner_val i bs]
        · simp only [h3, decide_false, if_false, Bool.false_eq_true, val_bind, val_op, val_branch, Option.bind_some]
          refine bnd fun s => ?_
          by_cases h4 : s ≥ -15
          · simp only [h4, decide_true, if_true, val_bind, val_put, Option.bind_some, slideCarry_val, slideInner_val i bs]
          · simp only [h4, decide_false, if_false, Bool.false_eq_true, val_pure]
      · simp only [h2, decide_false, if_false, Bool.false_eq_true, slideInner_val i bs]
    · simp only [h1, decide_false, if_false, Bool.false_eq_true, val_pure]

theorem slideBits_val (a : Bytes) : (slideBits a).val = some (Model.Ed25519.slideBits a) := by
  unfold slideBits Model.Ed25519.slideBits
  exact val_each_total _ _ (fun _ => rfl) _

theorem slide_val (a : Bytes) : (slide a).val = Model.Ed25519.slide .release a := by
  unfold slide Model.Ed25519.slide
  simp only [val_bind, val_check, slideBits_val, val_loop, Option.bind_some, Option.bind_eq_bind]
  congr 1
  funext _
  congr 1
  funext r i
  simp only [val_get, val_branch, Option.bind_some]
  by_cases h : r.getD i 0 ≠ 0
  · simp only [h, decide_true, if_true, slideInner_val, ne_eq, not_false_eq_true]
  · simp only [h, decide_false, if_false, Bool.false_eq_true, val_pure]

theorem topIndex_val (a b : List Int) : ∀ n, (topIndex a b n).val = some (Model.Ed25519.topIndex a b n)
  | 0 => rfl
  | n + 1 => by
    unfold topIndex Model.Ed25519.topIndex
    simp only [val_bind, val_branch, val_get, Option.bind_some]
    by_cases h1 : a.getD n 0 ≠ 0
    · simp only [h1, decide_true, if_true, val_pure, true_or, ne_eq, not_false_eq_true]
    · simp only [h1, decide_false, if_false, Bool.false_eq_true, val_bind, val_get, val_branch, Option.bind_some, false_or]
      by_cases h2 : b.getD n 0 ≠ 0
      · simp only [h2, decide_true, if_true, val_pure, ne_eq, not_false_eq_true]
      · simp only [h2, decide_false, if_false, Bool.false_eq_true, topIndex_val a b n]

attribute [local irreducible] Model.Ed25519.BI

theorem doubleStep_val (s s' : List Int) (ai : List GeCached) (r : GeP2) (i : Nat) :
    (doubleStep s s' ai r i).val = Model.Ed25519.doubleStep .release s s' ai r i := by
  have hA : ∀ (x : Int) (t : GeP1p1), (addA ai x t).val = (
      if x > 0 then do
        let u ← Model.Ed25519.p1p1ToP3 .release t
        let q ← ai[x.toNat / 2]?
        Model.Ed25519.geAdd .release u q
      else if x < 0 then do
        let u ← Model.Ed25519.p1p1ToP3 .release t
        let n ← Model.Ed25519.ck8 .release (-x)
        let q ← ai[n.toNat / 2]?
        Model.Ed25519.geSub .release u q
      else some t) := by
    intro x t
    unfold addA
    simp only [val_bind, val_branch, Option.bind_some]
    by_cases h1 : x > 0
    · simp only [h1, decide_true, if_true, val_bind, p1p1ToP3_val, val_index, geAdd_val, Option.bind_eq_bind]
    · simp only [h1, decide_false, if_false, Bool.false_eq_true, val_bind, val_branch, Option.bind_some]
      by_cases h2 : x < 0
      · simp only [h2, decide_true, if_true, val_bind, p1p1ToP3_val, val_op, val_index, geSub_val, Option.bind_eq_bind]
      · simp only [h2, decide_false, if_false, Bool.false_eq_true, val_pure]
  have hB : ∀ (x : Int) (t : GeP1p1), (addB x t).val = (
      if x > 0 then do
        let u ← Model.Ed25519.p1p1ToP3 .release t
        let q ← Model.Ed25519.BI[x.toNat / 2]?
        Model.Ed25519.geMadd .release u (Model.Ed25519.precompFrom q)
      else if x < 0 then do
        let u ← Model.Ed25519.p1p1ToP3 .release t
        let n ← Model.Ed25519.ck8 .release (-x)
        let q ← Model.Ed25519.BI[n.toNat / 2]?
        Model.Ed25519.geMsub .release u (Model.Ed25519.precompFrom q)
      else some t) := by
    intro x t
    unfold addB
    simp only [val_bind, val_branch, Option.bind_some]
    by_cases h1 : x > 0
    · simp only [h1, decide_true, if_true, val_bind, p1p1ToP3_val, val_index, geMadd_val, Option.bind_eq_bind]
    · simp only [h1, decide_false, if_false, Bool.false_eq_true, val_bind, val_branch, Option.bind_some]
      by_cases h2 : x < 0
      · simp only [h2, decide_true, if_true, val_bind, p1p1ToP3_val, val_op, val_index, geMsub_val, Option.bind_eq_bind]
      · simp only [h2, decide_false, if_false, Bool.false_eq_true, val_pure]
  unfold doubleStep Model.Ed25519.doubleStep
  simp only [val_bind, p2Dbl_val, val_get, Option.bind_some, hA, hB, p1p1ToP2_val, Option.bind_eq_bind]

theorem cachedTable_val (ga : GeP3) : (cachedTable ga).val = Model.Ed25519.cachedTable .release ga := by
  unfold cachedTable Model.Ed25519.cachedTable nextCached
  simp only [val_bind, p3ToCached_val, p3Dbl_val, p1p1ToP3_val, geAdd_val, val_pure, Option.bind_eq_bind]

theorem doubleScalarmult_val (a : Bytes) (ga : GeP3) (b : Bytes) :
    (doubleScalarmult a ga b).val = Model.Ed25519.doubleScalarmult .release a ga b := by
  unfold doubleScalarmult Model.Ed25519.doubleScalarmult
  simp only [val_bind, val_check, slide_val, cachedTable_val, topIndex_val, val_loop, doubleStep_val, Option.bind_some,
    Option.bind_eq_bind]

theorem fromBytesNegate_val (s : Bytes) : (fromBytesNegate s).val = Model.Ed25519.fromBytesNegate .release s := by
  unfold fromBytesNegate sqrtRatio Model.Ed25519.fromBytesNegate
  simp only [val_bind, fromBytes_val, sq_val, mul_val, sub_val, add_val, pow22523_val, isNonzero_val, val_branch,
    Option.bind_some, Option.bind_eq_bind, Option.bind_assoc]
  iterate 17 refine bnd fun _ => ?_
  rename_i c
  by_cases h1 : c ≠ 0
  · simp only [h1, decide_true, if_true, val_bind, add_val, isNonzero_val, val_branch, Option.bind_some, Option.bind_assoc,
      Option.bind_eq_bind, ne_eq, not_false_eq_true]
    iterate 2 refine bnd fun _ => ?_
    rename_i c'
    by_cases h2 : c' ≠ 0
    · rw [if_pos (decide_eq_true h2), if_pos h2]
      simp only [val_pure, Option.bind_some]
    · simp only [h2, decide_false, if_false, Bool.false_eq_true, val_bind, mul_val, val_pure, Option.bind_assoc,
        Option.bind_some, isNegative_val, val_branch]
      iterate 2 refine bnd fun _ => ?_
      rename_i n
      by_cases h3 : n = (s.getD 31 0 >>> 7).setWidth 32
      · simp only [h3, decide_true, if_true, neg_val]
      · simp only [h3, decide_false, if_false, Bool.false_eq_true, val_pure]
  · simp only [h1, decide_false, if_false, Bool.false_eq_true, val_bind, val_pure, Option.bind_some, isNegative_val,
      val_branch, mul_val]
    refine bnd fun n => ?_
    by_cases h3 : n = (s.getD 31 0 >>> 7).setWidth 32
    · simp only [h3, decide_true, if_true, neg_val]
    · simp only [h3, decide_false, if_false, Bool.false_eq_true, val_pure]

theorem verify_val (msg sig pk : Bytes) : (verify msg sig pk).val = Model.Ed25519.verify .release msg sig pk := by
  unfold verify Model.Ed25519.verify
  simp only [val_bind, val_check, val_branch, Option.bind_some, Option.bind_eq_bind]
  congr 1
  funext _
  by_cases h1 : sig.length ≠ 64
  · simp only [h1, decide_true, if_true, val_pure, true_or, ne_eq, not_false_eq_true]
  · simp only [h1, decide_false, if_false, Bool.false_eq_true, val_bind, val_branch, Option.bind_some, false_or]
    by_cases h2 : (sig.getD 63 0 &&& 224) ≠ 0
    · simp only [h2, decide_true, if_true, val_pure, ne_eq, not_false_eq_true]
    · simp only [h2, decide_false, if_false, Bool.false_eq_true, val_bind, fromBytesNegate_val, val_branch, Option.bind_some]
      congr 1
      funext a
      cases a with
      | none => rfl
      | some a =>
        simp only [val_bind, hashParts_val, val_op, doubleScalarmult_val, toBytes_val, verify32_val, val_pure,
          Option.bind_some]

end Ed25519
end CryptoPure.Leak
