import Verif.Proofs.Work
import Verif.Proofs.LeakVerify

/-! How many events the recorded X25519 and Ed25519 functions have. -/

namespace CryptoPure.Leak

namespace Fe

/-- At most ten limbs. -/
def Small (f : Model.Fe) : Prop := f.length ≤ 10

instance (f : Model.Fe) : Decidable (Small f) := inferInstanceAs (Decidable (_ ≤ _))

theorem small_zero_one : Small Model.Fe.zero ∧ Small Model.Fe.one := by decide

theorem small_limbs (e : SL.Env) (o : Nat) : Small (Model.Fe.limbs e o) := by
  simp only [Small, Model.Fe.limbs, List.length_take]
  omega

theorem takes_small {x : Option Model.Fe} (h : ∀ a, x = some a → Small a) : Takes 0 Small (op x) :=
  (takes_op x).mono fun a ha => ⟨Nat.le_refl _, h a ha⟩

theorem run_small (p : List SL.Stmt) (e : SL.Env) (o : Nat) (a : Model.Fe)
    (h : (do let env ← SL.run .release p e; some (Model.Fe.limbs env o)) = some a) : Small a := by
  cases hr : SL.run .release p e with
  | none => rw [hr] at h; cases h
  | some env =>
    rw [hr] at h
    cases h
    exact small_limbs _ _

theorem mul_takes (f g : Model.Fe) : Takes 0 Small (mul f g) := takes_small fun _ h => run_small _ _ _ _ h
theorem sq_takes (f : Model.Fe) : Takes 0 Small (sq f) := takes_small fun _ h => run_small _ _ _ _ h
theorem sq2_takes (f : Model.Fe) : Takes 0 Small (sq2 f) := takes_small fun _ h => run_small _ _ _ _ h
theorem mul121666_takes (f : Model.Fe) : Takes 0 Small (mul121666 f) := takes_small fun _ h => run_small _ _ _ _ h

theorem zip_small {f g : Model.Fe} (hf : Small f) : (f.zip g).length ≤ 10 := by
  rw [List.length_zip]
  exact Nat.le_trans (Nat.min_le_left _ _) hf

theorem add_takes {f : Model.Fe} (g : Model.Fe) (hf : Small f) : Takes 11 Small (add f g) :=
  (takes_each_le (k := 0) (P := fun _ => True) (fun _ => (takes_op _).mono fun _ _ => ⟨Nat.le_refl _, trivial⟩) _
    (zip_small hf)).mono fun a ha => ⟨Nat.le_refl _, by rw [Small, ha.1]; exact zip_small hf⟩
theorem sub_takes {f : Model.Fe} (g : Model.Fe) (hf : Small f) : Takes 11 Small (sub f g) :=
  (takes_each_le (k := 0) (P := fun _ => True) (fun _ => (takes_op _).mono fun _ _ => ⟨Nat.le_refl _, trivial⟩) _
    (zip_small hf)).mono fun a ha => ⟨Nat.le_refl _, by rw [Small, ha.1]; exact zip_small hf⟩
theorem neg_takes {f : Model.Fe} (hf : Small f) : Takes 11 Small (neg f) :=
  (takes_each_le (k := 0) (P := fun _ => True) (fun _ => (takes_op _).mono fun _ _ => ⟨Nat.le_refl _, trivial⟩) _
    hf).mono fun a ha => ⟨Nat.le_refl _, by rw [Small, ha.1]; exact hf⟩

theorem fromBytes_takes (s : Bytes) : Takes 1 Small (fromBytes s) :=
  (takes_check _).seq fun _ _ => takes_small fun a h => by
    unfold Model.Fe.fromBytes at h
    by_cases hs : 32 ≤ s.length
    · simp only [hs, decide_true, assert, if_true, Option.bind_eq_bind, Option.bind_some] at h
      exact run_small _ _ _ _ h
    · simp only [hs, decide_false, assert, if_false, Bool.false_eq_true, Option.bind_eq_bind, Option.bind_none] at h
      cases h

theorem toBytes_takes (f : Model.Fe) : Takes 0 (fun b => b.length = 32) (toBytes f) :=
  (takes_op _).mono fun a h => ⟨Nat.le_refl _, by
    unfold Model.Fe.toBytes at h
    cases hr : SL.run .release Model.FeWriteBytes.prog (f ++ List.replicate (Model.FeWriteBytes.size - 10) 0) with
    | none => rw [hr] at h; cases h
    | some env =>
      rw [hr] at h
      cases h
      simp [Model.Fe.storeBytes]⟩

theorem squareMany_takes {f : Model.Fe} (i : Nat) (hf : Small f) : Takes (i + 1) Small (squareMany f i) :=
  (takes_loop (k := 0) (P := Small) (Q := fun _ => True) (fun s _ _ _ => sq_takes s) _ f (fun _ _ => trivial) hf
    (n := i) (by simp)).le (by omega)

theorem invert_takes (z : Model.Fe) : Takes 300 Small (invert z) := by
  unfold invert
  have h := Within.seq (sq_takes z) fun t0 _ =>
    .seq (sq_takes t0) fun t1 _ => .seq (sq_takes t1) fun t1 _ =>
    .seq (mul_takes t1 z) fun t1 _ => .seq (mul_takes t0 t1) fun t0 _ =>
    .seq (sq_takes t0) fun t2 _ => .seq (mul_takes t1 t2) fun t1 _ =>
    .seq (sq_takes t1) fun t2 h2 => .seq (squareMany_takes 5 h2) fun t2 _ =>
    .seq (mul_takes t1 t2) fun t1 _ => .seq (sq_takes t1) fun t2 h2 =>
    .seq (squareMany_takes 10 h2) fun t2 _ => .seq (mul_takes t2 t1) fun t2 _ =>
    .seq (sq_takes t2) fun t3 h3 => .seq (squareMany_takes 20 h3) fun t3 _ =>
    .seq (mul_takes t2 t3) fun t2 h2 => .seq (squareMany_takes 11 h2) fun t2 _ =>
    .seq (mul_takes t1 t2) fun t1 _ => .seq (sq_takes t1) fun t2 h2 =>
    .seq (squareMany_takes 50 h2) fun t2 _ => .seq (mul_takes t2 t1) fun t2 _ =>
    .seq (sq_takes t2) fun t3 h3 => .seq (squareMany_takes 100 h3) fun t3 _ =>
    .seq (mul_takes t2 t3) fun t2 h2 => .seq (squareMany_takes 51 h2) fun t2 _ =>
    .seq (mul_takes t1 t2) fun t1 h1 => .seq (squareMany_takes 6 h1) fun t1 _ => mul_takes t1 t0
  exact h.le (by decide)

theorem pow22523_takes (z : Model.Fe) : Takes 300 Small (pow22523 z) := by
  unfold pow22523
  have h := Within.seq (sq_takes z) fun t0 _ =>
    .seq (sq_takes t0) fun t1 _ => .seq (sq_takes t1) fun t1 _ =>
    .seq (mul_takes t1 z) fun t1 _ => .seq (mul_takes t0 t1) fun t0 _ =>
    .seq (sq_takes t0) fun t0 _ => .seq (mul_takes t0 t1) fun t0 _ =>
    .seq (sq_takes t0) fun t1 h1 => .seq (squareMany_takes 5 h1) fun t1 _ =>
    .seq (mul_takes t0 t1) fun t0 _ => .seq (sq_takes t0) fun t1 h1 =>
    .seq (squareMany_takes 10 h1) fun t1 _ => .seq (mul_takes t1 t0) fun t1 _ =>
    .seq (sq_takes t1) fun t2 h2 => .seq (squareMany_takes 20 h2) fun t2 _ =>
    .seq (mul_takes t1 t2) fun t1 h1 => .seq (squareMany_takes 11 h1) fun t1 _ =>
    .seq (mul_takes t0 t1) fun t0 _ => .seq (sq_takes t0) fun t1 h1 =>
    .seq (squareMany_takes 50 h1) fun t1 _ => .seq (mul_takes t1 t0) fun t1 _ =>
    .seq (sq_takes t1) fun t2 h2 => .seq (squareMany_takes 100 h2) fun t2 _ =>
    .seq (mul_takes t1 t2) fun t1 h1 => .seq (squareMany_takes 51 h1) fun t1 _ =>
    .seq (mul_takes t0 t1) fun t0 _ => .seq (sq_takes t0) fun t0 _ => .seq (sq_takes t0) fun t0 _ => mul_takes z t0
  exact h.le (by decide)

theorem isNegative_takes (f : Model.Fe) : Takes 0 (fun _ => True) (isNegative f) :=
  (toBytes_takes f).seq fun _ _ => takes_pure trivial

theorem verify32_takes (x y : Bytes) (hx : x.length ≤ 32) : Takes 33 (fun _ => True) (verify32 x y) :=
  ((takes_loop (k := 0) (n := 32) (P := fun _ => True) (Q := fun _ => True) (fun _ _ _ _ => takes_pure trivial) (x.zip y) _
    (fun _ _ => trivial) trivial (by rw [List.length_zip]; omega)).seq fun _ _ => takes_pure trivial)

theorem isNonzero_takes (f : Model.Fe) : Takes 33 (fun _ => True) (isNonzero f) :=
  (toBytes_takes f).seq fun _ h => verify32_takes _ _ (by omega)

end Fe

namespace X25519
open Fe
open Model.X25519 (Ladder clamp)
open Model.Fe (cswap)

/-- All coordinates have at most ten limbs. -/
structure SmallL (s : Ladder) : Prop where
  x2 : Small s.x2
  z2 : Small s.z2
  x3 : Small s.x3
  z3 : Small s.z3

theorem cswap_small {f g : Model.Fe} (b : U32) (hf : Small f) (hg : Small g) :
    Small (cswap f g b).1 ∧ Small (cswap f g b).2 := by
  unfold Small at *
  simp [cswap]
  omega

theorem ladderStep_takes (e : Bytes) (x1 : Model.Fe) (s : Ladder) (pos : Nat) (h : SmallL s) :
    Takes 90 SmallL (ladderStep e x1 s pos) := by
  unfold ladderStep
  refine .step (takes_get e (pos / 8) 0) fun b _ => ?_
  have hX := cswap_small (s.swap ^^^ ((b >>> (pos % 8)).setWidth 32 &&& 1)) h.x2 h.x3
  have hZ := cswap_small (s.swap ^^^ ((b >>> (pos % 8)).setWidth 32 &&& 1)) h.z2 h.z3
  refine .step (sub_takes _ hX.2) fun _ tmp0 => ?_
  refine .step (sub_takes _ hX.1) fun _ tmp1 => ?_
  refine .step (add_takes _ hX.1) fun _ x2 => ?_
  refine .step (add_takes _ hX.2) fun _ z2 => ?_
  refine .step (mul_takes _ _) fun _ z3 => ?_
  refine .step (mul_takes _ _) fun _ z2 => ?_
  refine .step (sq_takes _) fun _ tmp0 => ?_
  refine .step (sq_takes _) fun _ tmp1 => ?_
  refine .step (add_takes _ z3) fun _ x3 => ?_
  refine .step (sub_takes _ z3) fun _ z2 => ?_
  refine .step (mul_takes _ _) fun _ x2 => ?_
  refine .step (sub_takes _ tmp1) fun _ tmp1 => ?_
  refine .step (sq_takes _) fun _ z2 => ?_
  refine .step (mul121666_takes _) fun _ z3 => ?_
  refine .step (sq_takes _) fun _ x3 => ?_
  refine .step (add_takes _ tmp0) fun _ tmp0 => ?_
  refine .step (mul_takes _ _) fun _ z3 => ?_
  refine .step (mul_takes _ _) fun _ z2 => ?_
  exact (takes_pure (P := SmallL) ⟨x2, z2, x3, z3⟩).le (by omega)

theorem scalarmult_takes (n p : Bytes) : Takes 24000 (fun b => b.length = 32) (scalarmult n p) := by
  unfold scalarmult
  have H := Within.seq (takes_check (32 == n.length)) fun _ _ => .seq (takes_check (32 == p.length)) fun _ _ =>
    .seq (fromBytes_takes p) fun x1 hx =>
    .seq (takes_loop (n := 255) (k := 90) (P := SmallL) (Q := fun _ => True)
      (fun s i hs _ => ladderStep_takes (clamp n) x1 s i hs) (List.range 255).reverse
      { x2 := Model.Fe.one, z2 := Model.Fe.zero, x3 := x1, z3 := Model.Fe.one, swap := 0 } (fun _ _ => trivial)
      ⟨small_zero_one.2, small_zero_one.1, hx, small_zero_one.2⟩ (by simp)) fun s hs =>
    .seq (invert_takes (cswap s.z2 s.z3 s.swap).1) fun z2 _ => .seq (mul_takes (cswap s.x2 s.x3 s.swap).1 z2) fun x2 _ =>
      toBytes_takes x2
  exact H.le (by decide)

end X25519
end CryptoPure.Leak
