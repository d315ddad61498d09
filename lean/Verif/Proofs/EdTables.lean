import Verif.Proofs.EdPoint
import Verif.Proofs.EdCerts

/-! # The precomputed tables and the order of the base point

The certificates of Verif/Proofs/EdCerts.lean are checked by kernel computation; `addOK` verifies one addition in the
group. -/

namespace CryptoPure.Ed
open Model Model.Fe Model.Ed25519 Spec Spec.Ed25519 Edwards

/-- 2^255 - 19. -/
def pN : Nat := 57896044618658097711785492504343953926634992332820282019728792003956564819949
/-- d. -/
def dN : Nat := 37095705934669439343138083508754565189542113879843219016388785533085940283555

/-- `R = P + Q`, cross-multiplied. -/
def addOK (P Q R : Nat × Nat) : Bool :=
  let t := dN * (P.1 * Q.1 % pN) * (P.2 * Q.2 % pN) % pN
  R.1 * (1 + t) % pN == (P.1 * Q.2 + Q.1 * P.2) % pN && R.2 * (1 + (pN - t)) % pN == (P.2 * Q.2 + P.1 * Q.1) % pN

/-- A pair of numbers as a pair of field elements. -/
def castPt (P : Nat × Nat) : Point := ((P.1 : F), (P.2 : F))

theorem castN {a b : Nat} (h : a % pN = b % pN) : (a : F) = (b : F) := cast_lit h
theorem cast_modN (a : Nat) : ((a % pN : Nat) : F) = (a : F) := castN (Nat.mod_mod _ _)
theorem cast_pN : ((pN : Nat) : F) = 0 := by
  have := castN (a := pN) (b := 0) (by decide)
  rwa [Nat.cast_zero] at this
theorem cast_dN : ((dN : Nat) : F) = d := by rw [d_val]; rfl

attribute [local irreducible] pN dN in
theorem addOK_sound {P Q R : Nat × Nat} {a b : Pt25519} (h : addOK P Q R = true) (ha : a.1 = castPt P) (hb : b.1 = castPt Q) :
    (a + b).1 = castPt R := by
  unfold addOK at h
  simp only [Bool.and_eq_true, beq_iff_eq] at h
  obtain ⟨h1, h2⟩ := h
  have ht : ((dN * (P.1 * Q.1 % pN) * (P.2 * Q.2 % pN) % pN : Nat) : F) = d * P.1 * Q.1 * P.2 * Q.2 := by
    rw [cast_modN, Nat.cast_mul, Nat.cast_mul, cast_modN, cast_modN, cast_dN]
    push_cast
    ring
  have hlt : dN * (P.1 * Q.1 % pN) * (P.2 * Q.2 % pN) % pN ≤ pN :=
    (Nat.mod_lt _ (by unfold pN; norm_num)).le
  generalize dN * (P.1 * Q.1 % pN) * (P.2 * Q.2 % pN) % pN = t at *
  have h1' := castN h1
  have h2' := castN h2
  rw [Nat.cast_mul, Nat.cast_add, Nat.cast_add, Nat.cast_sub hlt, ht, cast_pN] at h2'
  rw [Nat.cast_mul, Nat.cast_add, ht] at h1'
  push_cast at h1' h2'
  obtain ⟨d1, d2⟩ := den a b
  have hax : px a = (P.1 : F) := congrArg Prod.fst ha
  have hay : py a = (P.2 : F) := congrArg Prod.snd ha
  have hbx : px b = (Q.1 : F) := congrArg Prod.fst hb
  have hby : py b = (Q.2 : F) := congrArg Prod.snd hb
  refine Prod.ext ?_ ?_
  · show px (a + b) = (R.1 : F)
    rw [px_add, div_eq_iff d1, hax, hay, hbx, hby]
    linear_combination -h1'
  · show py (a + b) = (R.2 : F)
    rw [py_add, div_eq_iff d2, hax, hay, hbx, hby]
    linear_combination -h2'

/-! ## The order of the base point -/

/-- Check of a double-and-add computation starting at `cur`, with base `b`; the result is the scalar's continuation. -/
def orderCheck (b : Nat × Nat) : (n : Nat) → (cur : Nat × Nat) → List (Bool × (Nat × Nat) × (Nat × Nat)) → Option (Nat × (Nat × Nat))
  | n, cur, [] => some (n, cur)
  | n, cur, (bit, dbl, nxt) :: rest =>
    if addOK cur cur dbl && (if bit then addOK dbl b nxt else dbl == nxt) then
      orderCheck b (2 * n + (if bit then 1 else 0)) nxt rest
    else none

theorem orderCheck_sound {b : Nat × Nat} {g : Pt25519} (hg : g.1 = castPt b) {n : Nat} {cur : Nat × Nat}
    {l : List (Bool × (Nat × Nat) × (Nat × Nat))} {n' : Nat} {r : Nat × Nat} (h : orderCheck b n cur l = some (n', r))
    (hc : (n • g).1 = castPt cur) : (n' • g).1 = castPt r := by
  induction l generalizing n cur with
  | nil =>
    rw [orderCheck] at h
    injection h with h
    injection h with h1 h2
    subst h1 h2
    exact hc
  | cons s rest ih =>
    obtain ⟨bit, dbl, nxt⟩ := s
    rw [orderCheck] at h
    by_cases h1 : (addOK cur cur dbl && (if bit then addOK dbl b nxt else dbl == nxt)) = true
    · rw [if_pos h1] at h
      rw [Bool.and_eq_true] at h1
      refine ih h ?_
      have h2 := addOK_sound h1.1 hc hc
      rw [← add_smul, ← two_mul] at h2
      cases bit with
      | false =>
        have h3 := h1.2
        simp only [Bool.false_eq_true, if_false, beq_iff_eq] at h3
        rw [← h3]
        simpa using h2
      | true =>
        have h3 := addOK_sound h1.2 h2 hg
        rw [if_pos rfl, add_smul, one_smul]
        exact h3
    · rw [if_neg h1] at h
      exact absurd h (by simp)

/-- The base point as numbers. -/
def BN : Nat × Nat := (15112221349535400772501151409588531511454012693041857206046113283949847762202,
  46316835694926478169428394003475163141307993866256225615783033603165251855960)

theorem G_cast : G.1 = castPt BN := by
  refine Prod.ext ?_ ?_ <;> simp [castPt, BN, G, Spec.Ed25519.B]

theorem order_check : orderCheck BN 1 BN orderSteps =
    some (7237005577332262213973186563042994240857116359379907606001950938285454250989, (0, 1)) := by decide +kernel

theorem L_eq : L = 7237005577332262213973186563042994240857116359379907606001950938285454250989 := by norm_num [L]

/-- `L B = 0`. -/
theorem order_G : L • G = 0 := by
  rw [L_eq]
  have := orderCheck_sound G_cast order_check (by rw [one_smul]; exact G_cast)
  refine Subtype.ext ?_
  rw [this]
  simp [castPt, coe_zero, Spec.Ed25519.zero]

/-! ## The tables -/

/-- Entry `[y + x, y - x, 2 d x y]` for the point `P`. -/
def entryOK (P : Nat × Nat) (t : List (List Int)) : Bool :=
  let f := t.getD 0 []
  let g := t.getD 1 []
  let h := t.getD 2 []
  boundOK f && boundOK g && boundOK h && natVal f == (P.2 + P.1) % pN && natVal g == (P.2 + (pN - P.1 % pN)) % pN &&
    natVal h == 2 * dN * P.1 * P.2 % pN

attribute [local irreducible] pN dN in
theorem entryOK_sound {P : Nat × Nat} {t : List (List Int)} {a : Pt25519} (h : entryOK P t = true) (ha : a.1 = castPt P) :
    RepPre (precompFrom t) a := by
  unfold entryOK at h
  simp only [Bool.and_eq_true, beq_iff_eq] at h
  obtain ⟨⟨⟨⟨⟨h1, h2⟩, h3⟩, h4⟩, h5⟩, h6⟩ := h
  have hax : px a = (P.1 : F) := congrArg Prod.fst ha
  have hay : py a = (P.2 : F) := congrArg Prod.snd ha
  refine ⟨boundOK_spec h1, boundOK_spec h2, boundOK_spec h3, ?_, ?_, ?_⟩
  · rw [hax, hay]
    simp only [precompFrom]
    rw [← natVal_spec (boundOK_spec h1), h4, cast_modN]
    push_cast; rfl
  · rw [hax, hay]
    simp only [precompFrom]
    rw [← natVal_spec (boundOK_spec h2), h5, cast_modN, Nat.cast_add,
      Nat.cast_sub (Nat.mod_lt _ (by unfold pN; norm_num)).le, cast_modN, cast_pN]
    ring
  · rw [hax, hay]
    simp only [precompFrom]
    rw [← natVal_spec (boundOK_spec h3), h6, cast_modN]
    push_cast
    rw [cast_dN]

/-- Points `k b, (k + s) b, ..` with the matching table entries: consecutive points differ by `step`. -/
def rowOK (step : Nat × Nat) : (cur : Nat × Nat) → List (Nat × Nat) → List (List (List Int)) → Option (Nat × Nat)
  | cur, [], [] => some cur
  | cur, P :: ps, t :: ts => if addOK cur step P && entryOK P t then rowOK step P ps ts else none
  | _, _, _ => none

theorem rowOK_sound {step : Nat × Nat} {s : Pt25519} (hs : s.1 = castPt step) {cur : Nat × Nat} {c : Pt25519} (hc : c.1 = castPt cur)
    {ps : List (Nat × Nat)} {ts : List (List (List Int))} {last : Nat × Nat} (h : rowOK step cur ps ts = some last) :
    (∀ j (hj : j < ts.length), RepPre (precompFrom ts[j]) (c + (j + 1) • s)) ∧ (c + ts.length • s).1 = castPt last := by
  induction ps generalizing cur c ts with
  | nil =>
    cases ts with
    | nil =>
      rw [rowOK] at h
      injection h with h
      refine ⟨fun j hj => absurd hj (by simp), ?_⟩
      simpa [← h] using hc
    | cons t ts => simp [rowOK] at h
  | cons P ps ih =>
    cases ts with
    | nil => simp [rowOK] at h
    | cons t ts =>
      rw [rowOK] at h
      split at h
      · rename_i h1
        rw [Bool.and_eq_true] at h1
        have hP := addOK_sound h1.1 hc hs
        obtain ⟨i1, i2⟩ := ih hP h
        refine ⟨fun j hj => ?_, ?_⟩
        · cases j with
          | zero =>
            have := entryOK_sound h1.2 hP
            simpa using this
          | succ j =>
            have := i1 j (by simpa using hj)
            rw [List.getElem_cons_succ]
            have e : c + (j + 1 + 1) • s = c + s + (j + 1) • s := by rw [succ_nsmul s (j + 1)]; abel
            rw [e]; exact this
        · have e : c + (t :: ts).length • s = c + s + ts.length • s := by
            rw [List.length_cons, succ_nsmul]; abel
          rw [e]; exact i2
      · exact absurd h (by simp)

/-- Successive doublings. -/
def dblOK : (cur : Nat × Nat) → List (Nat × Nat) → Option (Nat × Nat)
  | cur, [] => some cur
  | cur, P :: ps => if addOK cur cur P then dblOK P ps else none

theorem dblOK_sound {cur : Nat × Nat} {c : Pt25519} (hc : c.1 = castPt cur) {ps : List (Nat × Nat)} {last : Nat × Nat}
    (h : dblOK cur ps = some last) : (2 ^ ps.length • c).1 = castPt last := by
  induction ps generalizing cur c with
  | nil =>
    rw [dblOK] at h
    injection h with h
    subst h
    simpa using hc
  | cons P ps ih =>
    rw [dblOK] at h
    split at h
    · rename_i h1
      have := ih (addOK_sound h1 hc hc) h
      rw [List.length_cons, pow_succ, mul_smul, two_smul]
      exact this
    · exact absurd h (by simp)

/-- All rows: row `i` starts at `256^i B`. -/
def tableOK : (cur : Nat × Nat) → List (List (Nat × Nat) × List (Nat × Nat)) → List (List (List (List Int))) → Bool
  | _, [], [] => true
  | cur, (ps, ds) :: rest, t :: ts =>
    t.length == 8 && ds.length == 5 &&
      match rowOK cur (0, 1) ps t with
      | none => false
      | some last =>
        match dblOK last ds with
        | none => false
        | some nxt => tableOK nxt rest ts
  | _, _, _ => false

theorem zero_cast : (0 : Pt25519).1 = castPt (0, 1) := by simp [castPt, coe_zero, Spec.Ed25519.zero]

theorem tableOK_sound {cur : Nat × Nat} {c : Pt25519} (hc : c.1 = castPt cur) {rows : List (List (Nat × Nat) × List (Nat × Nat))}
    {ts : List (List (List (List Int)))} (h : tableOK cur rows ts = true) (i : Nat) (hi : i < ts.length) :
    ts[i].length = 8 ∧ ∀ j (hj : j < ts[i].length), RepPre (precompFrom ts[i][j]) ((j + 1) • (256 ^ i • c)) := by
  induction rows generalizing cur c ts i with
  | nil =>
    cases ts with
    | nil => exact absurd hi (by simp)
    | cons t ts => simp [tableOK] at h
  | cons r rest ih =>
    obtain ⟨ps, ds⟩ := r
    cases ts with
    | nil => exact absurd hi (by simp)
    | cons t ts =>
      rw [tableOK] at h
      simp only [Bool.and_eq_true, beq_iff_eq] at h
      obtain ⟨⟨h1, h2⟩, h3⟩ := h
      split at h3
      · simp at h3
      · rename_i last hl
        split at h3
        · simp at h3
        · rename_i nxt hn
          obtain ⟨r1, r2⟩ := rowOK_sound hc zero_cast hl
          cases i with
          | zero =>
            refine ⟨h1, fun j hj => ?_⟩
            have := r1 j hj
            rw [zero_add] at this
            rw [pow_zero, one_smul]
            exact this
          | succ i =>
            have hd := dblOK_sound r2 hn
            have e : 2 ^ ds.length • (0 + t.length • c) = 256 • c := by
              rw [h2, h1, zero_add, ← mul_smul]
              norm_num
            rw [e] at hd
            have := ih hd h3 i (by simpa using hi)
            rw [List.getElem_cons_succ, pow_succ, mul_smul]
            exact this

theorem base_check : tableOK BN rows BASE = true := by decide +kernel

theorem bi_check : addOK BN BN two = true ∧ entryOK BN (BI.getD 0 []) = true ∧
    (rowOK two BN (odds.drop 1) (BI.drop 1)).isSome = true ∧ BI.length = 8 := by decide +kernel

/-- `BASE[i][j]` is `(j + 1) 256^i B`. -/
theorem base_entry (i : Nat) (hi : i < 32) : ∃ row, BASE[i]? = some row ∧ row.length = 8 ∧
    ∀ j, j < 8 → RepPre (precompFrom (row.getD j [])) (((j + 1) * 256 ^ i) • G) := by
  have hl : BASE.length = 32 := rfl
  have hi' : i < BASE.length := by rw [hl]; exact hi
  obtain ⟨h1, h2⟩ := tableOK_sound G_cast base_check i hi'
  refine ⟨BASE[i], List.getElem?_eq_getElem hi', h1, fun j hj => ?_⟩
  have hj' : j < BASE[i].length := by rw [h1]; exact hj
  have := h2 j hj'
  rw [← mul_smul] at this
  rw [List.getD_eq_getElem _ _ hj']
  exact this

/-- `BI[j]` is `(2 j + 1) B`. -/
theorem bi_entry (j : Nat) (hj : j < 8) : ∃ q, BI[j]? = some q ∧ RepPre (precompFrom q) ((2 * j + 1) • G) := by
  obtain ⟨c1, c2, c3, c4⟩ := bi_check
  have h2 := addOK_sound c1 G_cast G_cast
  rw [← two_smul ℕ] at h2
  obtain ⟨last, hl⟩ := Option.isSome_iff_exists.mp c3
  obtain ⟨r1, -⟩ := rowOK_sound h2 G_cast hl
  have hj' : j < BI.length := by rw [c4]; exact hj
  refine ⟨BI[j], List.getElem?_eq_getElem hj', ?_⟩
  cases j with
  | zero =>
    have := entryOK_sound c2 G_cast
    rw [List.getD_eq_getElem _ _ (by rw [c4]; norm_num)] at this
    simpa using this
  | succ j =>
    have := r1 j (by rw [List.length_drop, c4]; omega)
    rw [List.getElem_drop] at this
    have e : (2 * (j + 1) + 1) • G = G + (j + 1) • (2 • G) := by
      rw [add_smul, one_smul, mul_comm, mul_smul, add_comm]
    rw [e]
    convert this using 3
    omega

end CryptoPure.Ed
