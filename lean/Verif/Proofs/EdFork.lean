import Verif.Proofs.EdCount
import Verif.Proofs.EdWith

/-! # Running a forger twice -/

namespace CryptoPure.Prog
variable {α β : Type}

/-- No draw is from an empty set. -/
def Proper : Prog α → Prop
  | .done _ => True
  | .pick n next => 0 < n ∧ ∀ i, Proper (next i)

theorem ex_const {p : Prog α} (hp : p.Proper) (c : ℚ) : (p.ex fun _ => c) = c := by
  induction p with
  | done a => rfl
  | pick n next ih =>
    have hn : (n : ℚ) ≠ 0 := by exact_mod_cast hp.1.ne'
    simp only [ex]
    rw [Finset.sum_congr rfl fun i _ => ih i (hp.2 i), Finset.sum_const, Finset.card_univ, Fintype.card_fin, nsmul_eq_mul]
    field_simp

theorem Proper.bind {p : Prog α} {f : α → Prog β} (hp : p.Proper) (hf : ∀ a, (f a).Proper) : (p.bind f).Proper := by
  induction p with
  | done a => exact hf a
  | pick n next ih => exact ⟨hp.1, fun i => ih i (hp.2 i)⟩

end CryptoPure.Prog

namespace CryptoPure.EdGame
open Spec.Ed25519 Model.EdWith Prog

/-- What was hashed for this forgery. -/
abbrev pt (A : Point) (g : Forgery) : Bytes := point A g.message g.signature

theorem digest_all : digest.All fun y => y.length = 64 := fun i => by
  show (toLE 64 i.val).length = 64
  simp

theorem digest_proper : digest.Proper := ⟨digests_pos, fun _ => trivial⟩
theorem scalar_proper : scalar.Proper := ⟨L_pos', fun _ => trivial⟩

theorem simSign_length (A : Point) (k : Bytes) (S : Nat) : (simSign A k S).length = 64 := by
  simp [simSign, Ed.encode_length]

theorem accepts_len {m : Mode} {A : Point} {M sig k : Bytes} (h : accepts m A M sig k) : sig.length = 64 := by
  unfold accepts verifyWith at h
  by_contra hc
  have hl : 32 = (encode A).length := (Ed.encode_length A).symm
  simp [assert, ← hl, hc] at h

theorem lookup_cons_self (x y : Bytes) (T : Table) : ((x, y) :: T).lookup x = some y := by simp [List.lookup]
theorem lookup_cons_ne {x z : Bytes} (y : Bytes) (T : Table) (h : z ≠ x) : ((x, y) :: T).lookup z = T.lookup z := by
  have : (z == x) = false := by simpa using h
  simp [List.lookup, this]

/-- All answers have 64 bytes. -/
def Sound (T : Table) : Prop := ∀ x y, T.lookup x = some y → y.length = 64

theorem Sound.nil : Sound [] := fun x y h => by simp at h
theorem Sound.cons {T : Table} (hT : Sound T) (x : Bytes) {y : Bytes} (hy : y.length = 64) : Sound ((x, y) :: T) := by
  intro z w h
  by_cases hz : z = x
  · subst hz
    rw [lookup_cons_self] at h
    cases h; exact hy
  · rw [lookup_cons_ne _ _ hz] at h
    exact hT z w h

theorem fresh.tail {S : Table} {M sig M' sig' : Bytes} (h : fresh ((M, sig) :: S) M' sig') (hM : S.lookup M = none) : fresh S M' sig' := by
  intro old ho
  by_cases e : M' = M
  · rw [e, hM] at ho; cases ho
  · exact h old (by rw [lookup_cons_ne _ _ e, ho])

attribute [local irreducible] digests L digest scalar

theorem run_proper (m : Mode) (A : Point) (f : Forger) (T S : Table) : (run m A f T S).Proper := by
  induction f generalizing T S with
  | stop M sig =>
    rw [run]
    split
    · trivial
    · split <;> trivial
  | hash x next ih =>
    rw [run]
    split
    · exact ih _ _ _
    · exact digest_proper.bind fun y => ih _ _ _
  | sign M next ih =>
    rw [run]
    split
    · exact ih _ _ _
    · refine digest_proper.bind fun k => scalar_proper.bind fun s => ?_
      split
      · trivial
      · exact ih _ _ _

/-- What a successful run guarantees. -/
theorem run_all (m : Mode) (A : Point) (f : Forger) (T S : Table) (hT : Sound T) : (run m A f T S).All fun r => ∀ g, r = some g →
    accepts m A g.message g.signature g.challenge ∧ g.challenge.length = 64 ∧ fresh S g.message g.signature ∧
      ∀ y, T.lookup (pt A g) = some y → g.challenge = y := by
  induction f generalizing T S with
  | stop M sig =>
    rw [run]
    split
    · rintro g ⟨⟩
    · rename_i k hk
      split
      · rename_i h
        rintro g ⟨⟩
        refine ⟨h.2, hT _ _ hk, h.1, fun y hy => ?_⟩
        rw [hk] at hy
        exact Option.some.inj hy
      · rintro g ⟨⟩
  | hash x next ih =>
    rw [run]
    split
    · exact ih _ _ _ hT
    · rename_i hx
      refine digest_all.bind fun y hy => (ih y _ _ (hT.cons x hy)).imp fun r hr g hg => ?_
      obtain ⟨h1, h2, h3, h4⟩ := hr g hg
      refine ⟨h1, h2, h3, fun z hz => h4 z ?_⟩
      rw [lookup_cons_ne _ _ (fun e => by rw [e, hx] at hz; cases hz), hz]
  | sign M next ih =>
    rw [run]
    split
    · exact ih _ _ _ hT
    · rename_i hM
      refine digest_all.bind fun k hk => (All.triv scalar).bind fun s _ => ?_
      split
      · rintro g ⟨⟩
      · rename_i hx
        refine (ih _ _ _ (hT.cons _ hk)).imp fun r hr g hg => ?_
        obtain ⟨h1, h2, h3, h4⟩ := hr g hg
        refine ⟨h1, h2, ?_, fun z hz => h4 z ?_⟩
        · exact h3.tail hM
        · rw [lookup_cons_ne _ _ (fun e => by rw [e, hx] at hz; cases hz), hz]

/-- The first component of the double run is the single run. -/
theorem fork_fst (m : Mode) (A : Point) (f : Forger) (T S : Table) (g : Option Forgery → ℚ) :
    ((fork m A f T S).ex fun r => g r.1) = (run m A f T S).ex g := by
  induction f generalizing T S with
  | stop M sig =>
    rw [fork]
    rw [ex_bind]
    rfl
  | hash x next ih =>
    rw [fork, run]
    split
    · exact ih _ _ _
    · rw [ex_bind, ex_bind]
      congr 1; funext y
      rw [ex_bind, ← ih]
      congr 1; funext r
      split
      · rw [ex_bind]
        simp only [ex_bind, ex_done]
        rw [show (digest.ex fun a => (run m A (next a) ((x, a) :: T) S).ex fun _ => g r.1) = digest.ex fun _ => g r.1 from by
          congr 1; funext a; exact ex_const (run_proper ..) _]
        exact ex_const digest_proper _
      · rfl
  | sign M next ih =>
    rw [fork, run]
    split
    · exact ih _ _ _
    · simp only [ex_bind]
      congr 1; funext k
      congr 1; funext s
      split
      · rfl
      · exact ih _ _ _

theorem fork_all (m : Mode) (A : Point) (f : Forger) (T S : Table) (hT : Sound T) : (fork m A f T S).All fun r =>
    (∀ g, r.1 = some g → accepts m A g.message g.signature g.challenge ∧ g.challenge.length = 64 ∧ fresh S g.message g.signature ∧
      ∀ y, T.lookup (pt A g) = some y → g.challenge = y) ∧
    (∀ g, r.2 = some g → accepts m A g.message g.signature g.challenge ∧ g.challenge.length = 64) := by
  induction f generalizing T S with
  | stop M sig =>
    rw [fork]
    refine (run_all m A _ T S hT).bind fun r hr => ?_
    exact ⟨hr, by rintro g ⟨⟩⟩
  | hash x next ih =>
    rw [fork]
    split
    · exact ih _ _ _ hT
    · rename_i hx
      have conv : ∀ y, ∀ g : Forgery, (∀ z, ((x, y) :: T).lookup (pt A g) = some z → g.challenge = z) →
          ∀ z, T.lookup (pt A g) = some z → g.challenge = z := by
        intro y g h z hz
        refine h z ?_
        rw [lookup_cons_ne _ _ (fun e => by rw [e, hx] at hz; cases hz), hz]
      refine digest_all.bind fun y hy => (ih y _ _ (hT.cons x hy)).bind fun r hr => ?_
      have h1 : ∀ g, r.1 = some g → accepts m A g.message g.signature g.challenge ∧ g.challenge.length = 64 ∧ fresh S g.message g.signature ∧
          ∀ y, T.lookup (pt A g) = some y → g.challenge = y := by
        intro g hg
        obtain ⟨a, b, c, d⟩ := hr.1 g hg
        exact ⟨a, b, c, conv y g d⟩
      split
      · refine digest_all.bind fun y' hy' => (run_all m A (next y') _ S (hT.cons x hy')).bind fun r' hr' => ?_
        exact ⟨h1, fun g hg => ⟨(hr' g hg).1, (hr' g hg).2.1⟩⟩
      · exact ⟨h1, hr.2⟩
  | sign M next ih =>
    rw [fork]
    split
    · exact ih _ _ _ hT
    · rename_i hM
      refine digest_all.bind fun k hk => (All.triv scalar).bind fun s _ => ?_
      split
      · exact ⟨by rintro g ⟨⟩, by rintro g ⟨⟩⟩
      · rename_i hx
        refine (ih _ _ _ (hT.cons _ hk)).imp fun r hr => ⟨fun g hg => ?_, hr.2⟩
        obtain ⟨h1, h2, h3, h4⟩ := hr.1 g hg
        refine ⟨h1, h2, ?_, fun z hz => h4 z ?_⟩
        · exact h3.tail hM
        · rw [lookup_cons_ne _ _ (fun e => by rw [e, hx] at hz; cases hz), hz]

/-! ## The events -/

open Classical in
/-- Success at an argument that is not in the table. -/
noncomputable def hit (A : Point) (T : Table) (r : Option Forgery) : ℚ :=
  if ∃ g, r = some g ∧ T.lookup (pt A g) = none then 1 else 0

open Classical in
/-- Success at the argument `x`. -/
noncomputable def hitAt (A : Point) (x : Bytes) (r : Option Forgery) : ℚ :=
  if ∃ g, r = some g ∧ pt A g = x then 1 else 0

open Classical in
/-- Two successes at one argument that is not in the table, with different challenges. -/
noncomputable def good (A : Point) (T : Table) (r : Option Forgery × Option Forgery) : ℚ :=
  if ∃ g g', r = (some g, some g') ∧ pt A g = pt A g' ∧ T.lookup (pt A g) = none ∧ leNat g.challenge % L ≠ leNat g'.challenge % L
  then 1 else 0

theorem hit_nonneg (A : Point) (T : Table) (r) : 0 ≤ hit A T r := by unfold hit; split <;> simp
theorem hitAt_nonneg (A : Point) (x : Bytes) (r) : 0 ≤ hitAt A x r := by unfold hitAt; split <;> simp
theorem hitAt_le (A : Point) (x : Bytes) (r) : hitAt A x r ≤ 1 := by unfold hitAt; split <;> simp
theorem good_nonneg (A : Point) (T : Table) (r) : 0 ≤ good A T r := by unfold good; split <;> simp

theorem hit_cons (A : Point) {T : Table} {x : Bytes} (hx : T.lookup x = none) (y : Bytes) (r : Option Forgery) :
    hit A T r = hitAt A x r + hit A ((x, y) :: T) r := by
  unfold hit hitAt
  cases r with
  | none => simp
  | some g =>
    simp only [Option.some.injEq, exists_eq_left']
    by_cases h : pt A g = x
    · simp only [if_pos h, h, hx, lookup_cons_self, if_true]
      simp
    · simp only [if_neg h, lookup_cons_ne _ _ h, zero_add]

theorem arith_fork (q u y z : ℚ) (hq : 0 ≤ q) (hz : 0 ≤ z) (h : y ^ 2 ≤ q * z) : (u + y) ^ 2 ≤ (q + 1) * (u ^ 2 + z) := by
  rcases hq.eq_or_lt with h0 | h0
  · subst h0
    have : y ^ 2 ≤ 0 := by linarith
    have hy : y = 0 := by nlinarith [sq_nonneg y]
    subst hy
    nlinarith
  · have h2 : 0 ≤ q * ((q + 1) * (u ^ 2 + z) - (u + y) ^ 2) := by
      nlinarith [sq_nonneg (q * u - y)]
    have := nonneg_of_mul_nonneg_right h2 h0
    linarith

/-- The forking lemma. -/
theorem fork_lemma (m : Mode) (A : Point) (N : Nat) (f : Forger) (T S : Table) (q s : Nat) (hW : f.Within N q s) (hT : Sound T)
    (hS : Sound S) : ((run m A f T S).ex (hit A T)) ^ 2 ≤
      q * ((fork m A f T S).ex (good A T) + tiny * (run m A f T S).ex (hit A T)) := by
  have zpos : ∀ f T S T', 0 ≤ (fork m A f T S).ex (good A T') + tiny * (run m A f T S).ex (hit A T') := by
    intro f T S T'
    have := ex_nonneg (p := fork m A f T S) (good_nonneg A T')
    have := mul_nonneg tiny_pos.le (ex_nonneg (p := run m A f T S) (hit_nonneg A T'))
    linarith
  induction f generalizing T S q s with
  | stop M sig =>
    have h0 : (run m A (.stop M sig) T S).ex (hit A T) = 0 := by
      rw [run]
      split
      · simp [ex_done, hit]
      · rename_i k hk
        split
        · rw [ex_done]
          unfold hit
          rw [if_neg]
          rintro ⟨g, ⟨⟩, h⟩
          rw [show pt A ⟨M, sig, k⟩ = point A M sig from rfl, hk] at h
          cases h
        · simp [ex_done, hit]
    have := zpos (.stop M sig) T S T
    have hq : (0 : ℚ) ≤ q := by positivity
    rw [h0] at this ⊢
    have := mul_nonneg hq this
    linarith
  | hash x next ih =>
    obtain ⟨-, q', rfl, hW⟩ := hW
    have hq : (0 : ℚ) ≤ q' := by positivity
    rw [run, fork]
    split
    · rename_i y hy
      have h1 := ih y T S q' s (hW y (hT _ _ hy)) hT hS
      refine h1.trans (mul_le_mul_of_nonneg_right ?_ (zpos _ _ _ _))
      push_cast; linarith
    · rename_i hx
      rw [ex_bind, ex_bind]
      set w := digest.ex fun y => (run m A (next y) ((x, y) :: T) S).ex (hitAt A x) with hw
      set v := digest.ex fun y => (run m A (next y) ((x, y) :: T) S).ex (hit A ((x, y) :: T)) with hv
      set z := digest.ex fun y => (fork m A (next y) ((x, y) :: T) S).ex (good A ((x, y) :: T)) with hz
      have eu : (digest.ex fun y => (run m A (next y) ((x, y) :: T) S).ex (hit A T)) = w + v := by
        rw [hw, hv, ← ex_add]
        congr 1; funext y
        rw [← ex_add]
        congr 1; funext r
        exact hit_cons A hx y r
      -- the second run
      have second : ∀ k : Bytes, w - tiny ≤ digest.ex fun y' => (run m A (next y') ((x, y') :: T) S).ex fun r' =>
          if (∃ g', r' = some g' ∧ pt A g' = x ∧ leNat k % L ≠ leNat g'.challenge % L) then 1 else 0 := by
        intro k
        have h1 := digest_residue 0 (leNat k % L)
        have h2 : w ≤ (digest.ex fun y' => (run m A (next y') ((x, y') :: T) S).ex fun r' =>
          if (∃ g', r' = some g' ∧ pt A g' = x ∧ leNat k % L ≠ leNat g'.challenge % L) then (1 : ℚ) else 0) +
            digest.ex fun y => if (leNat y + 0) % L = leNat k % L then 1 else 0 := by
          rw [hw, ← ex_add]
          refine ex_mono_all digest_all fun y hy => ?_
          by_cases e : (leNat y + 0) % L = leNat k % L
          · rw [if_pos e]
            have h3 := ex_le_one (p := run m A (next y) ((x, y) :: T) S) (hitAt_le A x)
            have h4 : 0 ≤ (run m A (next y) ((x, y) :: T) S).ex fun r' =>
              if (∃ g', r' = some g' ∧ pt A g' = x ∧ leNat k % L ≠ leNat g'.challenge % L) then (1 : ℚ) else 0 :=
              ex_nonneg fun r => by split <;> simp
            linarith
          · rw [if_neg e, add_zero]
            refine ex_mono_all (run_all m A (next y) _ S (hT.cons x hy)) fun r hr => ?_
            unfold hitAt
            split
            · rename_i hg
              obtain ⟨g, rfl, hg⟩ := hg
              have hc := (hr g rfl).2.2.2 y (by rw [hg, lookup_cons_self])
              rw [if_pos ⟨g, rfl, hg, by rw [hc]; exact fun e' => e (by rw [Nat.add_zero]; exact e'.symm)⟩]
            · split <;> simp
        linarith
      have ez : z + w * (w - tiny) ≤ digest.ex fun y => ((fork m A (next y) ((x, y) :: T) S).bind fun r =>
          if ∃ f, r.1 = some f ∧ point A f.message f.signature = x then
            digest.bind fun y' => (run m A (next y') ((x, y') :: T) S).bind fun r' => .done (r.1, r')
          else .done r).ex (good A T) := by
        have : z + w * (w - tiny) = digest.ex fun y => (fork m A (next y) ((x, y) :: T) S).ex fun r =>
            good A ((x, y) :: T) r + hitAt A x r.1 * (w - tiny) := by
          have e1 : ∀ y, ((fork m A (next y) ((x, y) :: T) S).ex fun r => good A ((x, y) :: T) r + hitAt A x r.1 * (w - tiny)) =
              (fork m A (next y) ((x, y) :: T) S).ex (good A ((x, y) :: T)) +
                (run m A (next y) ((x, y) :: T) S).ex (hitAt A x) * (w - tiny) := by
            intro y
            rw [ex_add, ex_mul_right, fork_fst m A _ _ _ (hitAt A x)]
          simp only [e1]
          rw [ex_add, ex_mul_right]
        rw [this]
        refine ex_mono fun y => ?_
        rw [ex_bind]
        refine ex_mono fun r => ?_
        by_cases hr : ∃ f, r.1 = some f ∧ point A f.message f.signature = x
        · rw [if_pos hr]
          obtain ⟨g, hg1, hg2⟩ := hr
          have h0 : good A ((x, y) :: T) r = 0 := by
            unfold good
            rw [if_neg]
            rintro ⟨g1, g2, rfl, -, h, -⟩
            cases hg1
            rw [show pt A g = x from hg2, lookup_cons_self] at h
            cases h
          have h1 : hitAt A x r.1 = 1 := by unfold hitAt; rw [if_pos ⟨g, hg1, hg2⟩]
          rw [h0, h1, zero_add, one_mul]
          refine (second g.challenge).trans ?_
          rw [ex_bind]
          refine ex_mono fun y' => ?_
          rw [ex_bind]
          refine ex_mono fun r' => ?_
          rw [ex_done]
          split
          · rename_i hg'
            obtain ⟨g', rfl, e1, e2⟩ := hg'
            unfold good
            rw [if_pos ⟨g, g', by rw [hg1], by rw [e1]; exact hg2, by rw [show pt A g = x from hg2]; exact hx, e2⟩]
          · exact good_nonneg _ _ _
        · rw [if_neg hr, ex_done]
          have h1 : hitAt A x r.1 = 0 := by unfold hitAt; rw [if_neg hr]
          rw [h1, zero_mul, add_zero]
          unfold good
          split
          · rename_i hg
            obtain ⟨g, g', rfl, e1, e2, e3⟩ := hg
            have hne : pt A g ≠ x := fun e => hr ⟨g, rfl, e⟩
            rw [lookup_cons_ne _ _ hne] at e2
            rw [if_pos ⟨g, g', rfl, e1, e2, e3⟩]
          · split <;> simp
      have hv2 : v ^ 2 ≤ q' * (z + tiny * v) := by
        have h1 := ex_sq_le digest fun y => (run m A (next y) ((x, y) :: T) S).ex (hit A ((x, y) :: T))
        refine h1.trans ?_
        rw [hz, hv, ← ex_mul, ← ex_add, ← ex_mul]
        exact ex_mono_all digest_all fun y hy => ih y _ S q' s (hW y hy) (hT.cons x hy) hS
      have hzv : 0 ≤ z + tiny * v := by
        have h1 : 0 ≤ z := ex_nonneg fun y => ex_nonneg (good_nonneg _ _)
        have h2 : 0 ≤ v := ex_nonneg fun y => ex_nonneg (hit_nonneg _ _)
        have := mul_nonneg tiny_pos.le h2
        linarith
      rw [eu]
      refine (arith_fork q' w v (z + tiny * v) hq hzv hv2).trans ?_
      push_cast
      refine mul_le_mul_of_nonneg_left ?_ (by linarith)
      nlinarith
  | sign M next ih =>
    obtain ⟨-, s', rfl, hW⟩ := hW
    have hq : (0 : ℚ) ≤ q := by positivity
    rw [run, fork]
    split
    · rename_i sig hsig
      exact ih sig T S q s' (hW sig (hS _ _ hsig)) hT hS
    · rename_i hM
      simp only [ex_bind]
      rw [← ex_mul, ← ex_add, ← ex_mul]
      refine (ex_sq_le _ _).trans (ex_mono_all digest_all fun k hk => ?_)
      rw [← ex_mul, ← ex_add, ← ex_mul]
      refine (ex_sq_le _ _).trans (ex_mono fun t => ?_)
      split
      · simp [ex_done, hit, good]
      · rename_i hx
        have h1 := ih (simSign A k t) ((point A M (simSign A k t), k) :: T) ((M, simSign A k t) :: S) q s' (hW _ (simSign_length ..))
          (hT.cons _ hk) (hS.cons _ (simSign_length ..))
        have e : (run m A (next (simSign A k t)) ((point A M (simSign A k t), k) :: T) ((M, simSign A k t) :: S)).ex (hit A T) =
            (run m A (next (simSign A k t)) ((point A M (simSign A k t), k) :: T) ((M, simSign A k t) :: S)).ex
              (hit A ((point A M (simSign A k t), k) :: T)) := by
          refine ex_congr_all (run_all m A _ _ _ (hT.cons _ hk)) fun r hr => ?_
          rw [hit_cons A hx k r]
          have : hitAt A (point A M (simSign A k t)) r = 0 := by
            unfold hitAt
            rw [if_neg]
            rintro ⟨g, rfl, hg⟩
            obtain ⟨h1, -, h3, -⟩ := hr g rfl
            have hl := accepts_len h1
            unfold pt point at hg
            rw [List.append_assoc, List.append_assoc] at hg
            have e1 := List.append_inj hg (by simp [hl, simSign_length])
            have e2 := List.append_cancel_left e1.2
            exact h3 (simSign A k t) (by rw [e2, lookup_cons_self]) e1.1.symm
          rw [this, zero_add]
        rw [e]
        refine h1.trans (mul_le_mul_of_nonneg_left ?_ hq)
        have : (fork m A (next (simSign A k t)) ((point A M (simSign A k t), k) :: T) ((M, simSign A k t) :: S)).ex
            (good A ((point A M (simSign A k t), k) :: T)) ≤
            (fork m A (next (simSign A k t)) ((point A M (simSign A k t), k) :: T) ((M, simSign A k t) :: S)).ex (good A T) := by
          refine ex_mono fun r => ?_
          unfold good
          split
          · rename_i hg
            obtain ⟨g, g', rfl, e1, e2, e3⟩ := hg
            have hne : pt A g ≠ point A M (simSign A k t) := by
              intro e
              rw [e, lookup_cons_self] at e2
              cases e2
            rw [lookup_cons_ne _ _ hne] at e2
            rw [if_pos ⟨g, g', rfl, e1, e2, e3⟩]
          · split <;> simp
        linarith

end CryptoPure.EdGame
