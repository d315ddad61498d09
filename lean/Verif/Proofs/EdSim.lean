import Verif.Proofs.EdFork
import Verif.Proofs.EdOrder
import Verif.Proofs.Switch
import Verif.Props.HkdfPrf
import Mathlib.Algebra.Field.ZMod

/-! # Answering a forger without the secret key -/

namespace CryptoPure.EdGame
open Spec.Ed25519 Model.EdWith Prog Ed Edwards Switch Props

/-! ## Signatures as group elements -/

/-- The point `[S]B - [k][a]B`. -/
abbrev rPt (a k S : Nat) : Pt25519 := S • G - (k % L) • (a • G)

theorem rPt_coe (a k S : Nat) : ((rPt a k S : Pt25519) : Point) = add (smul S B) (neg (smul (k % L) (smul a B))) := by
  unfold rPt
  rw [sub_eq_add_neg, coe_add, coe_neg, coe_smulG, coe_smul, coe_smulG]

theorem simSign_eq (a : Nat) (k : Bytes) (S : Nat) : simSign (smul a B) k S = encode (rPt a (leNat k) S).1 ++ toLE 32 S := by
  rw [rPt_coe]; rfl

theorem accepts_iff (m : Mode) (a : Nat) (M sig k : Bytes) (hk : k.length = 64) : accepts m (smul a B) M sig k ↔
    sig.length = 64 ∧ leNat (sig.drop 32) < 2 ^ 253 ∧ encode (rPt a (leNat k) (leNat (sig.drop 32))).1 = sig.take 32 := by
  unfold accepts
  obtain ⟨b, e, hb⟩ := verifyWith_spec m (M := M) (sig := sig) (encode_length (smul a B)) (fun _ => k) (fun _ => hk)
  rw [e, Option.some.injEq, hb]
  refine and_congr_right fun _ => and_congr_right fun _ => ?_
  rw [rPt_coe]
  constructor
  · rintro ⟨A, dA, h⟩
    rwa [decodesLax_unique dA (Ed.Decodes.lax (decodes_smul a))] at h
  · intro h
    exact ⟨_, Ed.Decodes.lax (decodes_smul a), h⟩

theorem rPt_eq {a k k' S S' : Nat} (h : encode (rPt a k S).1 = encode (rPt a k' S').1) :
    (S : ZMod L) - S' = ((k : ZMod L) - k') * a := by
  have h1 : rPt a k S = rPt a k' S' := Subtype.ext (encode_inj (rPt a k S).2 (rPt a k' S').2 h)
  unfold rPt at h1
  have h2 : (S + k' % L * a) • G = (S' + k % L * a) • G := by
    rw [add_smul, add_smul, mul_smul, mul_smul]
    rw [sub_eq_sub_iff_add_eq_add] at h1
    exact h1
  rw [smulG_eq_iff] at h2
  have h3 : ((S + k' % L * a : Nat) : ZMod L) = ((S' + k % L * a : Nat) : ZMod L) := (ZMod.natCast_eq_natCast_iff _ _ _).mpr h2
  push_cast at h3
  simp only [ZMod.natCast_mod] at h3
  linear_combination h3

/-- Two signatures with one `R` and different challenges give the logarithm. -/
theorem solve_spec {m : Mode} {a : Nat} {g g' : Forgery} (h : accepts m (smul a B) g.message g.signature g.challenge)
    (h' : accepts m (smul a B) g'.message g'.signature g'.challenge) (l : g.challenge.length = 64) (l' : g'.challenge.length = 64)
    (hp : pt (smul a B) g = pt (smul a B) g') (hk : leNat g.challenge % L ≠ leNat g'.challenge % L) :
    smul (solve g g') B = smul a B := by
  have : Fact L.Prime := ⟨prime_L⟩
  rw [accepts_iff _ _ _ _ _ l] at h
  rw [accepts_iff _ _ _ _ _ l'] at h'
  obtain ⟨h1, -, h2⟩ := h
  obtain ⟨h1', -, h2'⟩ := h'
  have hR : g.signature.take 32 = g'.signature.take 32 := by
    unfold pt point at hp
    rw [List.append_assoc, List.append_assoc] at hp
    exact (List.append_inj hp (by simp [h1, h1'])).1
  have e := rPt_eq (h2.trans (hR.trans h2'.symm))
  have hne : ((leNat g.challenge : ZMod L) - leNat g'.challenge) ≠ 0 := by
    intro h0
    exact hk ((ZMod.natCast_eq_natCast_iff _ _ _).mp (sub_eq_zero.mp h0))
  have hs : ((solve g g' : Nat) : ZMod L) = (a : ZMod L) := by
    unfold solve
    rw [ZMod.natCast_zmod_val, e]
    field_simp
  have h5 : solve g g' % L = a % L := (ZMod.natCast_eq_natCast_iff _ _ _).mp hs
  rw [← coe_smulG, ← coe_smulG, smulG_eq_iff.mpr h5]

/-- Only one challenge (modulo `L`) fits a signature. -/
theorem challenge_unique {m : Mode} {a : Nat} (ha : ¬ L ∣ a) {M sig k k' : Bytes} (h : accepts m (smul a B) M sig k)
    (h' : accepts m (smul a B) M sig k') (l : k.length = 64) (l' : k'.length = 64) : leNat k % L = leNat k' % L := by
  have : Fact L.Prime := ⟨prime_L⟩
  rw [accepts_iff _ _ _ _ _ l] at h
  rw [accepts_iff _ _ _ _ _ l'] at h'
  have e := rPt_eq (h.2.2.trans h'.2.2.symm)
  rw [sub_self] at e
  rcases mul_eq_zero.mp e.symm with h0 | h0
  · exact (ZMod.natCast_eq_natCast_iff _ _ _).mp (sub_eq_zero.mp h0)
  · exact absurd ((ZMod.natCast_eq_zero_iff a L).mp h0) ha

theorem scalarOf_ndvd (az : Bytes) : ¬ L ∣ scalarOf az := by
  have hL : L = 2 ^ 252 + 27742317777372353535851937790883648493 := rfl
  obtain ⟨s, hs, s1, s2⟩ : ∃ s, scalarOf az = 8 * s ∧ 2 ^ 251 ≤ s ∧ s < 2 ^ 252 :=
    ⟨leNat (az.take 32) % 2 ^ 254 / 8 + 2 ^ 251, by unfold scalarOf; omega, by omega, by omega⟩
  rw [hs]
  intro hd
  rcases (Nat.Prime.dvd_mul Ed.prime_L).mp hd with hd | hd
  · exact absurd (Nat.le_of_dvd (by norm_num) hd) (by omega)
  · exact absurd (Nat.le_of_dvd (by omega) hd) (by omega)

/-- A signature is the simulated signature for the right second half. -/
theorem sign_sim (m : Mode) {az : Bytes} (h : az.length = 64) (Hn Hc : Bytes → Bytes) (hn : ∀ x, (Hn x).length = 64)
    (hc : ∀ x, (Hc x).length = 64) (M k : Bytes)
    (hk : Hc (encode (smul (leNat (Hn M)) B) ++ encode (smul (scalarOf az) B) ++ M) = k) :
    signWith m az Hn Hc M = some (simSign (smul (scalarOf az) B) k ((leNat (Hn M) + leNat k * scalarOf az) % L)) := by
  rw [signWith_spec m h Hn Hc hn hc M, hk, simSign_eq, ← coe_smulG]
  congr 4
  unfold rPt
  rw [eq_sub_iff_add_eq, ← mul_smul, ← add_smul, smulG_eq_iff, Nat.mod_mod, Nat.add_mod, Nat.mul_mod, Nat.mod_mod, ← Nat.mul_mod,
    ← Nat.add_mod]

theorem simSign_take (a n : Nat) (k : Bytes) :
    (simSign (smul a B) k ((n + leNat k * a) % L)).take 32 = encode (smul n B) := by
  rw [simSign_eq, List.take_left' (encode_length _), ← coe_smulG]
  congr 2
  unfold rPt
  rw [sub_eq_iff_eq_add, ← mul_smul, ← add_smul, smulG_eq_iff]
  simp only [Nat.mod_mod, Nat.add_mod, Nat.mul_mod]

theorem verifyWith_congr (m : Mode) (H H' : Bytes → Bytes) (M sig pk : Bytes)
    (h : H (sig.take 32 ++ pk ++ M) = H' (sig.take 32 ++ pk ++ M)) : verifyWith m H M sig pk = verifyWith m H' M sig pk := by
  unfold verifyWith
  simp only [h]

/-- What the signer returns is accepted. -/
theorem sign_accepts (m : Mode) {az : Bytes} (h : az.length = 64) (Hn Hc : Bytes → Bytes) (hn : ∀ x, (Hn x).length = 64)
    (hc : ∀ x, (Hc x).length = 64) {M sig : Bytes} (hs : signWith m az Hn Hc M = some sig) :
    accepts m (smul (scalarOf az) B) M sig (Hc (point (smul (scalarOf az) B) M sig)) := by
  have e := sign_sim m h Hn Hc hn hc M _ rfl
  rw [hs] at e
  have e := Option.some.inj e
  generalize hk : Hc (encode (smul (leNat (Hn M)) B) ++ encode (smul (scalarOf az) B) ++ M) = k at e
  have hp : Hc (point (smul (scalarOf az) B) M sig) = k := by
    unfold point
    rw [e, simSign_take, hk]
  rw [hp, accepts_iff _ _ _ _ _ (by rw [← hk]; exact hc _), e]
  have hlt : (leNat (Hn M) + leNat k * scalarOf az) % L < L := Nat.mod_lt _ (by unfold L; omega)
  have hL : L = 2 ^ 252 + 27742317777372353535851937790883648493 := rfl
  generalize (leNat (Hn M) + leNat k * scalarOf az) % L = t at hlt
  have hd : leNat ((simSign (smul (scalarOf az) B) k t).drop 32) = t := by
    rw [simSign_eq, List.drop_left' (encode_length _)]
    rw [leNat_toLE]
    exact Nat.mod_eq_of_lt (by omega)
  rw [hd]
  refine ⟨simSign_length .., by omega, ?_⟩
  rw [simSign_eq, List.take_left' (encode_length _)]

/-- Two signatures of a message with one `R` differ by a multiple of `L`. -/
theorem accepts_same {m : Mode} {a : Nat} {M sig sig' k : Bytes} (h : accepts m (smul a B) M sig k) (h' : accepts m (smul a B) M sig' k)
    (l : k.length = 64) (hR : sig.take 32 = sig'.take 32) : leNat (sig.drop 32) % L = leNat (sig'.drop 32) % L := by
  rw [accepts_iff _ _ _ _ _ l] at h h'
  have e := rPt_eq (h.2.2.trans (hR.trans h'.2.2.symm))
  rw [sub_self, zero_mul] at e
  exact (ZMod.natCast_eq_natCast_iff _ _ _).mp (sub_eq_zero.mp e)

/-! ## Random functions -/

abbrev Fns (N : Nat) := Keyed N 64 × Keyed N 64

theorem ask_update_self {N : Nat} (F : Keyed N 64) {x : Bytes} (h : x.length ≤ N) (y : {d : Bytes // d.length = 64}) :
    Keyed.ask (Function.update F ⟨x, h⟩ y) x = y.1 := by
  unfold Keyed.ask
  rw [dif_pos h, Function.update_self]

theorem ask_update_ne {N : Nat} (F : Keyed N 64) {x z : Bytes} (h : x.length ≤ N) (y : {d : Bytes // d.length = 64}) (hz : z ≠ x) :
    Keyed.ask (Function.update F ⟨x, h⟩ y) z = F.ask z := by
  unfold Keyed.ask
  split
  · rw [Function.update_of_ne (fun e => hz (congrArg Subtype.val e))]
  · rfl

theorem toLE_digest {d : Bytes} (h : d.length = 64) : toLE 64 (leNat d) = d := by
  rw [← h]; exact toLE_leNat d

/-- Averaging over the value of the function at `x`. `upd F y` sets that value to `y`. -/
theorem avg_at {N : Nat} (Ω : Set (Fns N)) (hne : Ω.Nonempty) (val : Fns N → Bytes) (hval : ∀ F, (val F).length = 64)
    (upd : Fns N → {d : Bytes // d.length = 64} → Fns N) (hΩ : ∀ F ∈ Ω, ∀ y, upd F y ∈ Ω) (h1 : ∀ F y, val (upd F y) = y.1)
    (h2 : ∀ F y y', upd (upd F y) y' = upd F y') (h3 : ∀ F y, val F = y.1 → upd F y = F) (W : Fns N → Prop) :
    cprob Ω W = digest.ex (fun y => cprob {F ∈ Ω | val F = y} W) ∧ ∀ y : Bytes, y.length = 64 → {F ∈ Ω | val F = y}.Nonempty := by
  have hlt : ∀ F, leNat (val F) < digests := by
    intro F
    have := leNat_lt (val F)
    rwa [hval] at this
  have key : ∀ i : Fin digests, {F ∈ Ω | (⟨leNat (val F), hlt F⟩ : Fin digests) = i} = {F ∈ Ω | val F = toLE 64 i} := by
    intro i
    ext F
    simp only [Set.mem_ofPred_eq, Fin.ext_iff]
    refine and_congr_right fun _ => ⟨fun h => ?_, fun h => ?_⟩
    · rw [← h, toLE_digest (hval F)]
    · rw [h, leNat_digest]
  have h := cprob_avg Ω (fun F => (⟨leNat (val F), hlt F⟩ : Fin digests)) Finset.univ hne (fun _ _ => Finset.mem_univ _) (by
    intro i _ j _
    rw [key, key]
    refine Set.ncard_congr (fun F _ => upd F ⟨toLE 64 j, by simp⟩) ?_ ?_ ?_
    · rintro F ⟨hF, -⟩
      exact ⟨hΩ F hF _, h1 _ _⟩
    · rintro F F' ⟨-, hF⟩ ⟨-, hF'⟩ e
      have := congrArg (fun F => upd F ⟨toLE 64 i, by simp⟩) e
      simp only [h2] at this
      rwa [h3 F _ hF, h3 F' _ hF'] at this
    · rintro F ⟨hF, e⟩
      refine ⟨upd F ⟨toLE 64 i, by simp⟩, ⟨hΩ F hF _, h1 _ _⟩, ?_⟩
      rw [h2]
      exact h3 F _ e) W
  refine ⟨?_, fun y hy => ?_⟩
  · rw [h.1, digest_ex, Finset.card_univ, Fintype.card_fin]
    simp only [key]
  · have := h.2 ⟨leNat y, by have := leNat_lt y; rwa [hy] at this⟩ (Finset.mem_univ _)
    rw [key] at this
    simp only [toLE_digest hy] at this
    exact this

theorem avgC {N : Nat} (Ω : Set (Fns N)) (hne : Ω.Nonempty) {x : Bytes} (hx : x.length ≤ N)
    (hΩ : ∀ F ∈ Ω, ∀ y, (F.1, Function.update F.2 ⟨x, hx⟩ y) ∈ Ω) (W : Fns N → Prop) :
    cprob Ω W = digest.ex (fun y => cprob {F ∈ Ω | F.2.ask x = y} W) ∧ ∀ y : Bytes, y.length = 64 → {F ∈ Ω | F.2.ask x = y}.Nonempty :=
  avg_at Ω hne (fun F => F.2.ask x) (fun F => ask_length _ _) (fun F y => (F.1, Function.update F.2 ⟨x, hx⟩ y)) hΩ
    (fun F y => ask_update_self F.2 hx y) (fun F y y' => by simp) (fun F y h => by
      refine Prod.ext rfl ?_
      have : F.2 ⟨x, hx⟩ = y := by
        refine Subtype.ext ?_
        unfold Keyed.ask at h
        rwa [dif_pos hx] at h
      rw [← this]
      exact Function.update_eq_self _ _) W

theorem avgN {N : Nat} (Ω : Set (Fns N)) (hne : Ω.Nonempty) {x : Bytes} (hx : x.length ≤ N)
    (hΩ : ∀ F ∈ Ω, ∀ y, (Function.update F.1 ⟨x, hx⟩ y, F.2) ∈ Ω) (W : Fns N → Prop) :
    cprob Ω W = digest.ex (fun y => cprob {F ∈ Ω | F.1.ask x = y} W) ∧ ∀ y : Bytes, y.length = 64 → {F ∈ Ω | F.1.ask x = y}.Nonempty :=
  avg_at Ω hne (fun F => F.1.ask x) (fun F => ask_length _ _) (fun F y => (Function.update F.1 ⟨x, hx⟩ y, F.2)) hΩ
    (fun F y => ask_update_self F.1 hx y) (fun F y y' => by simp) (fun F y h => by
      refine Prod.ext ?_ rfl
      have : F.1 ⟨x, hx⟩ = y := by
        refine Subtype.ext ?_
        unfold Keyed.ask at h
        rwa [dif_pos hx] at h
      rw [← this]
      exact Function.update_eq_self _ _) W

/-! ## The simulation -/

/-- `Ω` are the functions that agree with what the forger has seen so far. -/
structure Seen (m : Mode) (az : Bytes) {N : Nat} (Ω : Set (Fns N)) (T S : Table) : Prop where
  ne : Ω.Nonempty
  updC : ∀ F ∈ Ω, ∀ x (h : x.length ≤ N), T.lookup x = none → ∀ y, (F.1, Function.update F.2 ⟨x, h⟩ y) ∈ Ω
  updN : ∀ F ∈ Ω, ∀ M (h : M.length ≤ N), S.lookup M = none → ∀ y, (Function.update F.1 ⟨M, h⟩ y, F.2) ∈ Ω
  tab : ∀ x y, T.lookup x = some y → ∀ F ∈ Ω, F.2.ask x = y
  sig : ∀ M s, S.lookup M = some s → ∀ F ∈ Ω, signWith m az F.1.ask F.2.ask M = some s
  sT : Sound T
  sS : Sound S

theorem Seen.hash {m : Mode} {az : Bytes} {N : Nat} {Ω : Set (Fns N)} {T S : Table} (h : Seen m az Ω T S) {x : Bytes}
    (hx : x.length ≤ N) (hT : T.lookup x = none) {y : Bytes} (hy : y.length = 64) :
    Seen m az {F ∈ Ω | F.2.ask x = y} ((x, y) :: T) S := by
  have hA := avgC Ω h.ne hx (fun F hF => h.updC F hF x hx hT) (fun _ => True)
  refine ⟨hA.2 y hy, ?_, ?_, ?_, fun M s hs F hF => h.sig M s hs F hF.1, h.sT.cons x hy, h.sS⟩
  · rintro F ⟨hF, e⟩ z hz hTz w
    have hne : z ≠ x := by
      rintro rfl
      rw [lookup_cons_self] at hTz
      cases hTz
    rw [lookup_cons_ne _ _ hne] at hTz
    exact ⟨h.updC F hF z hz hTz w, (ask_update_ne F.2 hz w hne.symm).trans e⟩
  · rintro F ⟨hF, e⟩ M hM hSM w
    exact ⟨h.updN F hF M hM hSM w, e⟩
  · rintro z w hz F ⟨hF, e⟩
    by_cases hne : z = x
    · subst hne
      rw [lookup_cons_self] at hz
      cases hz
      exact e
    · rw [lookup_cons_ne _ _ hne] at hz
      exact h.tab z w hz F hF

attribute [local irreducible] digests L digest scalar

open Classical in
/-- A new nonce rarely gives an `R` that occurred before. -/
theorem collision (A M : Bytes) (T : Table) :
    (digest.ex fun n => if T.lookup (encode (smul (leNat n) B) ++ A ++ M) ≠ none then 1 else 0) ≤ T.length * tiny := by
  induction T with
  | nil => simp [ex_zero]
  | cons p T ih =>
    obtain ⟨x, y⟩ := p
    have h1 : (digest.ex fun n => if encode (smul (leNat n) B) ++ A ++ M = x then 1 else 0) ≤ tiny := by
      by_cases hex : ∃ n0 : Bytes, encode (smul (leNat n0) B) ++ A ++ M = x
      · obtain ⟨n0, e0⟩ := hex
        refine le_trans (ex_mono fun n => ?_) (digest_residue 0 (leNat n0 % L))
        by_cases e : encode (smul (leNat n) B) ++ A ++ M = x
        · rw [if_pos e, if_pos]
          have e2 := e.trans e0.symm
          rw [List.append_assoc, List.append_assoc] at e2
          have e3 := (List.append_inj e2 (by rw [encode_length, encode_length])).1
          rw [← coe_smulG, ← coe_smulG] at e3
          have e4 : leNat n • G = leNat n0 • G := Subtype.ext (encode_inj (leNat n • G).2 (leNat n0 • G).2 e3)
          rw [Nat.add_zero]
          exact smulG_eq_iff.mp e4
        · rw [if_neg e]; split <;> simp
      · refine le_trans (ex_mono (h := fun _ => 0) fun n => ?_) (by rw [ex_zero]; exact tiny_pos.le)
        rw [if_neg (fun e => hex ⟨n, e⟩)]
    have h2 : (digest.ex fun n => if ((x, y) :: T).lookup (encode (smul (leNat n) B) ++ A ++ M) ≠ none then (1 : ℚ) else 0) ≤
        (digest.ex fun n => if T.lookup (encode (smul (leNat n) B) ++ A ++ M) ≠ none then 1 else 0) +
        (digest.ex fun n => if encode (smul (leNat n) B) ++ A ++ M = x then 1 else 0) := by
      rw [← ex_add]
      refine ex_mono fun n => ?_
      by_cases e : encode (smul (leNat n) B) ++ A ++ M = x
      · rw [if_pos e]
        split <;> split <;> norm_num
      · rw [if_neg e, lookup_cons_ne _ _ e, add_zero]
    rw [List.length_cons]
    push_cast
    linarith

/-- The chance that the simulation is not faithful. -/
def slack (q s t : Nat) : ℚ := (s * (t + q + s + 1) + 1) * tiny

theorem slack_nonneg (q s t : Nat) : 0 ≤ slack q s t := by
  unfold slack; have := tiny_pos; positivity

theorem sim_le (m : Mode) {az : Bytes} (haz : az.length = 64) {N : Nat} (f : Forger) (Ω : Set (Fns N)) (T S : Table) (log : List (Bytes × Bytes))
    (q s : Nat) (hW : f.Within N q s) (h : Seen m az Ω T S) (hlog : ∀ M sig, (M, sig) ∈ log ↔ S.lookup M = some sig) :
    cprob Ω (fun F => winsStrong F.2.ask (signWith m az F.1.ask F.2.ask)
        (fun M sig => verifyWith m F.2.ask M sig (encode (smul (scalarOf az) B))) f log) ≤
      (run m (smul (scalarOf az) B) f T S).pr (fun r => r ≠ none) + slack q s T.length := by
  classical
  set A := smul (scalarOf az) B with hA
  have prn : ∀ f T S, 0 ≤ (run m A f T S).pr (fun r => r ≠ none) := fun f T S => pr_nonneg _ _
  have pr1 : ∀ f T S, (run m A f T S).pr (fun r => r ≠ none) ≤ 1 := fun f T S => pr_le_one _ _
  induction f generalizing Ω T S log q s with
  | stop M sig =>
    have hM : M.length + 64 ≤ N := hW
    have hx : (point A M sig).length ≤ N := by
      unfold point
      simp only [List.length_append, List.length_take, encode_length]
      omega
    have htiny : tiny ≤ slack q s T.length := by
      unfold slack
      have h1 : (0 : ℚ) ≤ s * (T.length + q + s + 1) := by positivity
      nlinarith [tiny_pos]
    rcases hk : T.lookup (point A M sig) with _ | k
    · rw [(avgC Ω h.ne hx (fun F hF => h.updC F hF _ hx hk) _).1]
      have h1 : (digest.ex fun y => cprob {F ∈ Ω | F.2.ask (point A M sig) = y} (fun F => winsStrong F.2.ask (signWith m az F.1.ask F.2.ask)
          (fun M sig => verifyWith m F.2.ask M sig (encode A)) (.stop M sig) log)) ≤ tiny := by
        have hacc : ∀ y, cprob {F ∈ Ω | F.2.ask (point A M sig) = y} (fun F => winsStrong F.2.ask (signWith m az F.1.ask F.2.ask)
            (fun M sig => verifyWith m F.2.ask M sig (encode A)) (.stop M sig) log) ≤ if accepts m A M sig y then 1 else 0 := by
          intro y
          split
          · exact cprob_le_one _ _
          · rename_i hna
            rw [cprob_congr (W' := fun _ => False)]
            · simp [cprob]
            · rintro F ⟨-, hF⟩
              refine iff_of_false ?_ id
              rintro ⟨hv, -⟩
              refine hna ?_
              unfold accepts
              rw [← hv]
              exact (verifyWith_congr m _ _ M sig _ hF).symm
        by_cases hex : ∃ y0 : Bytes, y0.length = 64 ∧ accepts m A M sig y0
        · obtain ⟨y0, l0, a0⟩ := hex
          refine le_trans (ex_mono_all digest_all fun y hy => ?_) (digest_residue 0 (leNat y0 % L))
          refine (hacc y).trans ?_
          by_cases ha : accepts m A M sig y
          · rw [if_pos ha, if_pos]
            rw [Nat.add_zero]
            exact challenge_unique (scalarOf_ndvd az) ha a0 hy l0
          · rw [if_neg ha]; split <;> simp
        · refine le_trans (ex_mono_all (h := fun _ => 0) digest_all fun y hy => ?_) (by rw [ex_zero]; exact tiny_pos.le)
          refine (hacc y).trans ?_
          rw [if_neg (fun ha => hex ⟨y, hy, ha⟩)]
      have := prn (.stop M sig) T S
      linarith
    · have hW' : ∀ F ∈ Ω, winsStrong F.2.ask (signWith m az F.1.ask F.2.ask)
          (fun M sig => verifyWith m F.2.ask M sig (encode A)) (.stop M sig) log → fresh S M sig ∧ accepts m A M sig k := by
        rintro F hF ⟨hv, hn⟩
        have hp := h.tab _ _ hk F hF
        have ha : accepts m A M sig k := by
          unfold accepts
          rw [← hv]
          exact (verifyWith_congr m _ (fun _ => k) M sig _ hp).symm
        refine ⟨fun old ho hR => hn old ((hlog M old).mpr ho) ⟨hR, ?_⟩, ha⟩
        have h1 := sign_accepts m haz F.1.ask F.2.ask (ask_length F.1) (ask_length F.2) (h.sig _ _ ho F hF)
        have e : point (smul (scalarOf az) B) M old = point A M sig := by unfold point; rw [hR]
        rw [e, hp] at h1
        exact accepts_same h1 ha (h.sT _ _ hk) hR
      have hs := slack_nonneg q s T.length
      by_cases hc : fresh S M sig ∧ accepts m A M sig k
      · have e : (run m A (.stop M sig) T S).pr (fun r => r ≠ none) = 1 := by
          rw [run, hk]
          simp only
          rw [if_pos hc]
          simp [pr, ex_done]
        rw [e]
        have := cprob_le_one Ω (fun F => winsStrong F.2.ask (signWith m az F.1.ask F.2.ask)
          (fun M sig => verifyWith m F.2.ask M sig (encode A)) (.stop M sig) log)
        linarith
      · rw [cprob_congr (W' := fun _ => False) (fun F hF => iff_of_false (fun hw => hc (hW' F hF hw)) id)]
        have := prn (.stop M sig) T S
        simp only [cprob, and_false, Set.ofPred_false, Set.ncard_empty, Nat.cast_zero, zero_div]
        linarith
  | hash x next ih =>
    obtain ⟨hx, q', rfl, hW⟩ := hW
    rw [run]
    rcases hk : T.lookup x with _ | y
    · simp only
      rw [(avgC Ω h.ne hx (fun F hF => h.updC F hF _ hx hk) _).1]
      have e : ((digest.bind fun y => run m A (next y) ((x, y) :: T) S).pr fun r => r ≠ none) + slack (q' + 1) s T.length =
          digest.ex fun y => (run m A (next y) ((x, y) :: T) S).pr (fun r => r ≠ none) + slack q' s (T.length + 1) := by
        rw [ex_add, ex_const digest_proper]
        unfold pr
        rw [ex_bind]
        congr 1
        unfold slack
        push_cast
        ring
      rw [e]
      refine ex_mono_all digest_all fun y hy => ?_
      refine le_trans (le_of_eq ?_) (ih y {F ∈ Ω | F.2.ask x = y} ((x, y) :: T) S log q' s (hW y hy) (h.hash hx hk hy) hlog)
      refine cprob_congr fun F hF => ?_
      rw [winsStrong, hF.2]
    · simp only
      rw [cprob_congr (W' := fun F => winsStrong F.2.ask (signWith m az F.1.ask F.2.ask)
        (fun M sig => verifyWith m F.2.ask M sig (encode A)) (next y) log)]
      · refine (ih y Ω T S log q' s (hW y (h.sT _ _ hk)) h hlog).trans (add_le_add le_rfl ?_)
        unfold slack
        refine mul_le_mul_of_nonneg_right ?_ tiny_pos.le
        push_cast
        have : (0 : ℚ) ≤ s := by positivity
        nlinarith
      · intro F hF
        rw [winsStrong, h.tab _ _ hk F hF]
  | sign M next ih =>
    obtain ⟨hM, s', rfl, hW⟩ := hW
    rw [run]
    rcases hk : S.lookup M with _ | sig
    · simp only
      have hMN : M.length ≤ N := by omega
      rw [(avgN Ω h.ne hMN (fun F hF => h.updN F hF _ hMN hk) _).1]
      -- the simulated value for a challenge and a second half
      let g : Bytes → Nat → ℚ := fun k t => (match T.lookup (point A M (simSign A k t)) with
        | some _ => Prog.done none
        | none => run m A (next (simSign A k t)) ((point A M (simSign A k t), k) :: T) ((M, simSign A k t) :: S)).pr fun r => r ≠ none
      have hg0 : ∀ k t, 0 ≤ g k t := fun k t => pr_nonneg _ _
      have hg1 : ∀ k t, g k t ≤ 1 := fun k t => pr_le_one _ _
      have e : ((digest.bind fun k => scalar.bind fun t => match T.lookup (point A M (simSign A k t)) with
        | some _ => Prog.done none
        | none => run m A (next (simSign A k t)) ((point A M (simSign A k t), k) :: T) ((M, simSign A k t) :: S)).pr fun r => r ≠ none) =
          digest.ex fun k => scalar.ex (g k) := by
        unfold pr
        rw [ex_bind]
        congr 1; funext k
        rw [ex_bind]
        rfl
      refine le_of_le_of_eq ?_ (congrArg (· + slack q (s' + 1) T.length) e.symm)
      -- one nonce
      have step : ∀ n : Bytes, n.length = 64 → cprob {F ∈ Ω | F.1.ask M = n} (fun F => winsStrong F.2.ask (signWith m az F.1.ask F.2.ask)
          (fun M sig => verifyWith m F.2.ask M sig (encode A)) (.sign M next) log) ≤
          (if T.lookup (encode (smul (leNat n) B) ++ encode A ++ M) ≠ none then 1 else 0) +
            ((digest.ex fun k => g k ((leNat n + leNat k * scalarOf az) % L)) + slack q s' (T.length + 1)) := by
        intro n hn
        by_cases hc : T.lookup (encode (smul (leNat n) B) ++ encode A ++ M) ≠ none
        · rw [if_pos hc]
          have h1 : 0 ≤ digest.ex fun k => g k ((leNat n + leNat k * scalarOf az) % L) := ex_nonneg fun k => hg0 _ _
          have h2 := slack_nonneg q s' (T.length + 1)
          have h3 := cprob_le_one {F ∈ Ω | F.1.ask M = n} (fun F => winsStrong F.2.ask (signWith m az F.1.ask F.2.ask)
            (fun M sig => verifyWith m F.2.ask M sig (encode A)) (.sign M next) log)
          linarith
        · rw [if_neg hc, zero_add]
          have hc : T.lookup (encode (smul (leNat n) B) ++ encode A ++ M) = none := not_ne_iff.mp hc
          set xn := encode (smul (leNat n) B) ++ encode A ++ M with hxn
          have hxl : xn.length ≤ N := by
            rw [hxn]
            simp only [List.length_append, encode_length]
            omega
          have hNe := (avgN Ω h.ne hMN (fun F hF => h.updN F hF _ hMN hk) (fun _ => True)).2 n hn
          have hupd : ∀ F ∈ {F ∈ Ω | F.1.ask M = n}, ∀ y, (F.1, Function.update F.2 ⟨xn, hxl⟩ y) ∈ {F ∈ Ω | F.1.ask M = n} := by
            rintro F ⟨hF, e⟩ y
            exact ⟨h.updC F hF xn hxl hc y, e⟩
          have hav := avgC {F ∈ Ω | F.1.ask M = n} hNe hxl hupd
          rw [(hav _).1, ← ex_const digest_proper (slack q s' (T.length + 1)), ← ex_add]
          refine ex_mono_all digest_all fun k hkl => ?_
          -- one challenge
          set t := (leNat n + leNat k * scalarOf az) % L with ht
          have hpt : point A M (simSign A k t) = xn := by
            unfold point
            rw [ht, hA, simSign_take, hxn]
          have hgk : g k t = (run m A (next (simSign A k t)) ((xn, k) :: T) ((M, simSign A k t) :: S)).pr fun r => r ≠ none := by
            show Prog.pr _ _ = _
            rw [hpt, hc]
          have hsig : ∀ F ∈ {F ∈ {F ∈ Ω | F.1.ask M = n} | F.2.ask xn = k},
              signWith m az F.1.ask F.2.ask M = some (simSign A k t) := by
            rintro F ⟨⟨hF, e1⟩, e2⟩
            have e1 : F.1.ask M = n := e1
            have := sign_sim m haz F.1.ask F.2.ask (ask_length F.1) (ask_length F.2) M k (by rw [e1]; exact e2)
            rw [this, e1]
          have hseen : Seen m az {F ∈ {F ∈ Ω | F.1.ask M = n} | F.2.ask xn = k} ((xn, k) :: T) ((M, simSign A k t) :: S) := by
            refine ⟨(hav (fun _ => True)).2 k hkl, ?_, ?_, ?_, ?_, h.sT.cons _ hkl, h.sS.cons _ (simSign_length ..)⟩
            · rintro F ⟨⟨hF, e1⟩, e2⟩ z hz hTz w
              have hne : z ≠ xn := by
                rintro rfl
                rw [lookup_cons_self] at hTz
                cases hTz
              rw [lookup_cons_ne _ _ hne] at hTz
              exact ⟨⟨h.updC F hF z hz hTz w, e1⟩, (ask_update_ne F.2 hz w hne.symm).trans e2⟩
            · rintro F ⟨⟨hF, e1⟩, e2⟩ M' hM' hSM w
              have hne : M' ≠ M := by
                rintro rfl
                rw [lookup_cons_self] at hSM
                cases hSM
              rw [lookup_cons_ne _ _ hne] at hSM
              exact ⟨⟨h.updN F hF M' hM' hSM w, (ask_update_ne F.1 hM' w hne.symm).trans e1⟩, e2⟩
            · rintro z w hz F ⟨⟨hF, e1⟩, e2⟩
              by_cases hne : z = xn
              · rw [hne, lookup_cons_self] at hz
                cases hz
                rw [hne]
                exact e2
              · rw [lookup_cons_ne _ _ hne] at hz
                exact h.tab z w hz F hF
            · rintro M' sg hz F hF
              by_cases hne : M' = M
              · rw [hne, lookup_cons_self] at hz
                cases hz
                rw [hne]
                exact hsig F hF
              · rw [lookup_cons_ne _ _ hne] at hz
                exact h.sig M' sg hz F hF.1.1
          have := ih (simSign A k t) _ _ _ ((M, simSign A k t) :: log) q s' (hW _ (simSign_length ..)) hseen (by
            intro M' sg
            by_cases hne : M' = M
            · rw [hne, lookup_cons_self, List.mem_cons, hlog, hk, Prod.mk.injEq, Option.some.injEq]
              simp [eq_comm]
            · rw [lookup_cons_ne _ _ hne, ← hlog]; simp [hne])
          rw [List.length_cons] at this
          rw [hgk]
          refine le_trans (le_of_eq ?_) this
          refine cprob_congr fun F hF => ?_
          rw [winsStrong, hsig F hF]
      have hcol := collision (encode A) M T
      have hswap : (digest.ex fun n => digest.ex fun k => g k ((leNat n + leNat k * scalarOf az) % L)) ≤
          (digest.ex fun k => scalar.ex (g k)) + tiny := by
        rw [ex_comm, ← ex_const digest_proper tiny, ← ex_add]
        exact ex_mono fun k => digest_bias (leNat k * scalarOf az) (g k) (hg0 k) (hg1 k)
      have hsum := ex_mono_all digest_all step
      rw [ex_add, ex_add, ex_const digest_proper] at hsum
      have hfin : slack q s' (T.length + 1) + T.length * tiny + tiny ≤ slack q (s' + 1) T.length := by
        unfold slack
        have h1 : slack q s' (T.length + 1) + T.length * tiny + tiny =
          (s' * ((T.length + 1 : Nat) + q + s' + 1) + 1 + T.length + 1) * tiny := by unfold slack; ring
        rw [show ((s' : ℚ) * ((T.length + 1 : Nat) + q + s' + 1) + 1) * tiny + T.length * tiny + tiny =
          (s' * ((T.length + 1 : Nat) + q + s' + 1) + 1 + T.length + 1) * tiny by ring]
        refine mul_le_mul_of_nonneg_right ?_ tiny_pos.le
        push_cast
        have h2 : (0 : ℚ) ≤ q := by positivity
        have h3 : (0 : ℚ) ≤ s' := by positivity
        nlinarith
      linarith
    · simp only
      rw [cprob_congr (W' := fun F => winsStrong F.2.ask (signWith m az F.1.ask F.2.ask)
        (fun M sig => verifyWith m F.2.ask M sig (encode A)) (next sig) ((M, sig) :: log))]
      · refine (ih sig Ω T S ((M, sig) :: log) q s' (hW sig (h.sS _ _ hk)) h ?_).trans (add_le_add le_rfl ?_)
        · intro M' sg
          rw [List.mem_cons, hlog, Prod.mk.injEq]
          constructor
          · rintro (⟨rfl, rfl⟩ | h)
            · exact hk
            · exact h
          · exact Or.inr
        · unfold slack
          refine mul_le_mul_of_nonneg_right ?_ tiny_pos.le
          push_cast
          have h2 : (0 : ℚ) ≤ q := by positivity
          have h3 : (0 : ℚ) ≤ s' := by positivity
          have h4 : (0 : ℚ) ≤ T.length := by positivity
          nlinarith
      · intro F hF
        rw [winsStrong, h.sig _ _ hk F hF]

end CryptoPure.EdGame
