import Verif.Proofs.FePow

/-! # C47: arithmetic modulo 2^255 - 19

In every theorem `m` ranges over both build modes; `some` in `.debug` means that no `i32`/`i64` operation overflowed. -/

namespace CryptoPure.Props.Field
open SL Spec Model Model.Fe

theorem bound_iff (n : Nat) (f : Fe) : LimbBound n f ↔ B n f := by
  unfold LimbBound B In tB
  refine and_congr_right fun _ => forall_congr' fun i => imp_congr_right fun _ => ?_
  rw [abs_le]

theorem value_eq {n : Nat} {f : Fe} (h : B n f) : limbValue f = val f := by
  obtain ⟨f0, f1, f2, f3, f4, f5, f6, f7, f8, f9, rfl⟩ := h.elim
  rw [val, valZ_explicit]
  simp only [limbValue, Finset.sum_range_succ, Finset.sum_range_zero, List.getD_cons_zero, List.getD_cons_succ]
  push_cast
  ring

/-! ### The result does not depend on the mode when nothing overflows -/

theorem ck_mode {t : Ty} {x y : Int} (h : ck .debug t x = some y) : ck .release t x = some y := by
  unfold ck at *
  split at h
  · rename_i hc; rw [if_pos hc]; exact h
  · cases h

theorem eval_mode {env : Env} (e : Exp) {x : Int} (h : eval .debug env e = some x) : eval .release env e = some x := by
  induction e generalizing x with
  | var | lit => exact h
  | add t a b iha ihb | sub t a b iha ihb | mul t a b iha ihb =>
    simp only [eval, Option.bind_eq_bind, Option.bind_eq_some_iff] at *
    obtain ⟨y, h1, z, h2, h3⟩ := h
    exact ⟨y, iha h1, z, ihb h2, ck_mode h3⟩
  | shr a k ih | shl t a k ih | cast32 a ih =>
    simp only [eval, Option.bind_eq_bind, Option.bind_eq_some_iff] at *
    obtain ⟨y, h1, h3⟩ := h
    exact ⟨y, ih h1, h3⟩

theorem run_mode (p : List Stmt) {env env' : Env} (h : run .debug p env = some env') : run .release p env = some env' := by
  induction p generalizing env with
  | nil => exact h
  | cons s p ih =>
    simp only [run, Option.bind_eq_bind, Option.bind_eq_some_iff] at *
    obtain ⟨y, h1, h2⟩ := h
    exact ⟨y, eval_mode _ h1, ih h2⟩

theorem all_modes {α : Type} {f : Mode → Option α} {p : α → Prop} (h : ∃ x, f .debug = some x ∧ p x)
    (hm : ∀ x, f .debug = some x → f .release = some x) : ∃ x, (∀ m, f m = some x) ∧ p x := by
  obtain ⟨x, h1, h2⟩ := h
  refine ⟨x, fun m => ?_, h2⟩
  cases m
  · exact h1
  · exact hm x h1

theorem prog_mode {p : List Stmt} {env : Env} {o : Nat} {x : Fe}
    (h : (run .debug p env).bind (fun e => some (limbs e o)) = some x) :
    (run .release p env).bind (fun e => some (limbs e o)) = some x := by
  simp only [Option.bind_eq_some_iff] at *
  obtain ⟨y, h1, h2⟩ := h
  exact ⟨y, run_mode p h1, h2⟩

/-! ### C47 -/

/-- C47, multiplication. -/
theorem C47_mul (f g : Fe) (hf : LimbBound 3 f) (hg : LimbBound 3 g) :
    ∃ h, (∀ m, mul m f g = some h) ∧ LimbBound 1 h ∧ limbValue h = limbValue f * limbValue g := by
  rw [bound_iff] at hf hg
  rw [value_eq hf, value_eq hg]
  refine all_modes ?_ (fun _ h => prog_mode h)
  obtain ⟨h, h1, h2, h3⟩ := mul_spec .debug hf hg
  exact ⟨h, h1, (bound_iff _ _).mpr h2, by rw [value_eq h2, h3]⟩

/-- C47, squaring. -/
theorem C47_square (f : Fe) (hf : LimbBound 3 f) :
    ∃ h, (∀ m, sq m f = some h) ∧ LimbBound 1 h ∧ limbValue h = limbValue f ^ 2 := by
  rw [bound_iff] at hf
  rw [value_eq hf]
  refine all_modes ?_ (fun _ h => prog_mode h)
  obtain ⟨h, h1, h2, h3⟩ := sq_spec .debug hf
  exact ⟨h, h1, (bound_iff _ _).mpr h2, by rw [value_eq h2, h3, pow_two]⟩

/-- C47, twice the square. -/
theorem C47_twice_square (f : Fe) (hf : LimbBound 3 f) :
    ∃ h, (∀ m, sq2 m f = some h) ∧ LimbBound 1 h ∧ limbValue h = 2 * limbValue f ^ 2 := by
  rw [bound_iff] at hf
  rw [value_eq hf]
  refine all_modes ?_ (fun _ h => prog_mode h)
  obtain ⟨h, h1, h2, h3⟩ := sq2_spec .debug hf
  exact ⟨h, h1, (bound_iff _ _).mpr h2, by rw [value_eq h2, h3, pow_two]⟩

/-- C47, multiplication by 121666. -/
theorem C47_mul121666 (f : Fe) (hf : LimbBound 3 f) :
    ∃ h, (∀ m, mul121666 m f = some h) ∧ LimbBound 1 h ∧ limbValue h = 121666 * limbValue f := by
  rw [bound_iff] at hf
  rw [value_eq hf]
  refine all_modes ?_ (fun _ h => prog_mode h)
  obtain ⟨h, h1, h2, h3⟩ := mul121666_spec .debug hf
  exact ⟨h, h1, (bound_iff _ _).mpr h2, by rw [value_eq h2, h3]⟩

theorem mapM_mode {α : Type} (g : α → Int) (l : List α) {x : List Int} (h : l.mapM (fun a => ck .debug .i32 (g a)) = some x) :
    l.mapM (fun a => ck .release .i32 (g a)) = some x := by
  induction l generalizing x with
  | nil => exact h
  | cons a l ih =>
    simp only [List.mapM_cons, Option.bind_eq_bind, Option.bind_eq_some_iff] at *
    obtain ⟨y, h1, z, h2, h3⟩ := h
    exact ⟨y, ck_mode h1, z, ih h2, h3⟩

/-- C47, addition: bounds add up; the limbs are not reduced. -/
theorem C47_add (a b : Nat) (f g : Fe) (hf : LimbBound a f) (hg : LimbBound b g) (hab : a + b ≤ 50) :
    ∃ h, (∀ m, add m f g = some h) ∧ LimbBound (a + b) h ∧ limbValue h = limbValue f + limbValue g := by
  rw [bound_iff] at hf hg
  rw [value_eq hf, value_eq hg]
  refine all_modes ?_ (fun _ h => mapM_mode (fun p : Int × Int => p.1 + p.2) (f.zip g) h)
  obtain ⟨h, h1, h2, h3⟩ := add_spec .debug hf hg hab
  exact ⟨h, h1, (bound_iff _ _).mpr h2, by rw [value_eq h2, h3]⟩

/-- C47, subtraction. -/
theorem C47_sub (a b : Nat) (f g : Fe) (hf : LimbBound a f) (hg : LimbBound b g) (hab : a + b ≤ 50) :
    ∃ h, (∀ m, sub m f g = some h) ∧ LimbBound (a + b) h ∧ limbValue h = limbValue f - limbValue g := by
  rw [bound_iff] at hf hg
  rw [value_eq hf, value_eq hg]
  refine all_modes ?_ (fun _ h => mapM_mode (fun p : Int × Int => p.1 - p.2) (f.zip g) h)
  obtain ⟨h, h1, h2, h3⟩ := sub_spec .debug hf hg hab
  exact ⟨h, h1, (bound_iff _ _).mpr h2, by rw [value_eq h2, h3]⟩

/-- C47, negation. -/
theorem C47_neg (a : Nat) (f : Fe) (hf : LimbBound a f) (ha : a ≤ 50) :
    ∃ h, (∀ m, neg m f = some h) ∧ LimbBound a h ∧ limbValue h = - limbValue f := by
  rw [bound_iff] at hf
  rw [value_eq hf]
  refine all_modes ?_ (fun _ h => mapM_mode (fun x => -x) _ h)
  obtain ⟨h, h1, h2, h3⟩ := neg_spec .debug hf ha
  exact ⟨h, h1, (bound_iff _ _).mpr h2, by rw [value_eq h2, h3]⟩

/-- C47, inversion (with 0 ↦ 0). -/
theorem C47_invert (m : Mode) (f : Fe) (hf : LimbBound 1 f) :
    ∃ h, invert m f = some h ∧ LimbBound 1 h ∧ limbValue h = (limbValue f)⁻¹ := by
  rw [bound_iff] at hf
  rw [value_eq hf]
  obtain ⟨h, h1, h2, h3⟩ := invert_spec m hf
  exact ⟨h, h1, (bound_iff _ _).mpr h2, by rw [value_eq h2, h3]⟩

/-- C47, the power `(p - 5) / 8`. -/
theorem C47_pow22523 (m : Mode) (f : Fe) (hf : LimbBound 1 f) :
    ∃ h, pow22523 m f = some h ∧ LimbBound 1 h ∧ limbValue h = limbValue f ^ ((p25519 - 5) / 8) := by
  rw [bound_iff] at hf
  rw [value_eq hf]
  obtain ⟨h, h1, h2, h3⟩ := pow22523_spec m hf
  refine ⟨h, h1, (bound_iff _ _).mpr h2, ?_⟩
  rw [value_eq h2, h3]
  congr 1

/-- C47, loading 32 bytes: bit 255 is ignored. -/
theorem C47_load (m : Mode) (s : Bytes) (hs : s.length = 32) :
    ∃ h, fromBytes m s = some h ∧ LimbBound 1 h ∧ limbValue h = ((leNat s % 2 ^ 255 : Nat) : F) := by
  obtain ⟨h, h1, h2, h3⟩ := fromBytes_spec m hs
  exact ⟨h, h1, (bound_iff _ _).mpr h2, by rw [value_eq h2, h3]⟩

/-- C47, storing: the canonical representative, little-endian. -/
theorem C47_store (m : Mode) (f : Fe) (hf : LimbBound 3 f) : toBytes m f = some (toLE 32 (limbValue f).val) := by
  rw [bound_iff] at hf
  rw [value_eq hf]
  exact toBytes_spec m hf

/-- C47, conditional swap: `b = 0` leaves the operands, `b = 1` exchanges them. -/
theorem C47_cswap (a b : Nat) (f g : Fe) (hf : LimbBound a f) (hg : LimbBound b g) (ha : a ≤ 50) (hb : b ≤ 50) :
    cswap f g 0 = (f, g) ∧ cswap f g 1 = (g, f) ∧ cmov f g 0 = f ∧ cmov f g 1 = g := by
  rw [bound_iff] at hf hg
  exact ⟨cswap_zero hf hg ha hb, cswap_one hf hg ha hb, cmov_zero hf hg.1 ha, cmov_one hf.1 hg hb⟩

/-- Limbs at the extreme of the bound 3, of alternating sign. -/
example : LimbBound 3 [110729625, -55364811, 110729625, -55364811, 110729625, -55364811, 110729625, -55364811, 110729625,
    -55364811] := by
  refine ⟨rfl, ?_⟩
  decide

/-- The limbs of `p - 1 = 2^255 - 20` (written non-canonically as -1) meet the bound 1. -/
example : LimbBound 1 [-1, 0, 0, 0, 0, 0, 0, 0, 0, 0] := by
  refine ⟨rfl, ?_⟩
  decide

/-! ## Further concrete cases -/

/-- An operand at the extreme of the bound 3, and one that is not reduced. -/
def bigLimbs : Fe := [110729625, -55364811, 110729625, -55364811, 110729625, -55364811, 110729625, -55364811, 110729625, -55364811]

theorem bigLimbs_bound : LimbBound 3 bigLimbs := ⟨rfl, by decide⟩

/-- The limbs of -1. -/
def minusOne : Fe := [-1, 0, 0, 0, 0, 0, 0, 0, 0, 0]

theorem minusOne_bound : LimbBound 1 minusOne := ⟨rfl, by decide⟩

theorem minusOne_value : limbValue minusOne = -1 := by
  simp [minusOne, limbValue, Finset.sum_range_succ]

example : ∃ h, (∀ m, mul m bigLimbs bigLimbs = some h) ∧ LimbBound 1 h ∧ limbValue h = limbValue bigLimbs * limbValue bigLimbs :=
  C47_mul bigLimbs bigLimbs bigLimbs_bound bigLimbs_bound

example : ∃ h, (∀ m, sq m bigLimbs = some h) ∧ LimbBound 1 h ∧ limbValue h = limbValue bigLimbs ^ 2 :=
  C47_square bigLimbs bigLimbs_bound

example : ∃ h, (∀ m, sq2 m bigLimbs = some h) ∧ LimbBound 1 h ∧ limbValue h = 2 * limbValue bigLimbs ^ 2 :=
  C47_twice_square bigLimbs bigLimbs_bound

example : ∃ h, (∀ m, mul121666 m bigLimbs = some h) ∧ LimbBound 1 h ∧ limbValue h = 121666 * limbValue bigLimbs :=
  C47_mul121666 bigLimbs bigLimbs_bound

example : ∃ h, (∀ m, add m bigLimbs minusOne = some h) ∧ LimbBound 4 h ∧ limbValue h = limbValue bigLimbs - 1 := by
  have h := C47_add 3 1 bigLimbs minusOne bigLimbs_bound minusOne_bound (by decide)
  rwa [minusOne_value, ← sub_eq_add_neg] at h

example : ∃ h, (∀ m, sub m bigLimbs minusOne = some h) ∧ LimbBound 4 h ∧ limbValue h = limbValue bigLimbs + 1 := by
  have h := C47_sub 3 1 bigLimbs minusOne bigLimbs_bound minusOne_bound (by decide)
  rwa [minusOne_value, sub_neg_eq_add] at h

example : ∃ h, (∀ m, neg m minusOne = some h) ∧ LimbBound 1 h ∧ limbValue h = 1 := by
  have h := C47_neg 1 minusOne minusOne_bound (by decide)
  rwa [minusOne_value, neg_neg] at h

example : ∃ h, invert .debug minusOne = some h ∧ LimbBound 1 h ∧ limbValue h = -1 := by
  have h := C47_invert .debug minusOne minusOne_bound
  rwa [minusOne_value, inv_neg, inv_one] at h

example : ∃ h, pow22523 .debug minusOne = some h ∧ LimbBound 1 h ∧ limbValue h = (-1) ^ ((p25519 - 5) / 8) := by
  have h := C47_pow22523 .debug minusOne minusOne_bound
  rwa [minusOne_value] at h

/-- All bits set: bit 255 is ignored, and the number is not below `p`. -/
example : ∃ h, fromBytes .debug (List.replicate 32 255) = some h ∧ LimbBound 1 h ∧
    limbValue h = ((leNat (List.replicate 32 255) % 2 ^ 255 : Nat) : F) := C47_load .debug _ (by decide)

/-- Storing -1 gives the bytes of `p - 1`. -/
example : toBytes .debug minusOne = some (toLE 32 (2 ^ 255 - 20)) := by decide +kernel

example : toBytes .release bigLimbs = some (toLE 32 (limbValue bigLimbs).val) := C47_store .release bigLimbs bigLimbs_bound

example : cswap bigLimbs minusOne 1 = (minusOne, bigLimbs) :=
  (C47_cswap 3 1 bigLimbs minusOne bigLimbs_bound minusOne_bound (by decide) (by decide)).2.1

end CryptoPure.Props.Field
