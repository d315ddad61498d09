import Verif.Props.Merkle
import Verif.Proofs.MerkleLog

/-! # C157: logs that only grow

Proofs that a list of items begins with an earlier list, with the hash trees of C155. -/

namespace CryptoPure.Props.MerkleLog
open CryptoPure.Model CryptoPure.Props CryptoPure.Props.KeyedCollision CryptoPure.Props.Merkle Spec.Sha2 Spec.Merkle Proofs Proofs.HmacSha Proofs.HmacIdeal Proofs.ShaIdeal Proofs.Merkle
open KdfGame (Prober)
open Game (prob prob_mono)

theorem checkGrowth_grow {h : Bytes → Option Bytes} {m n : Nat} {old new : Bytes} {ps : List Bytes} :
    checkGrowth h m n old new ps = some true ↔ (0 < m ∧ m ≤ n ∧ ∀ p ∈ ps, p.length = old.length) ∧ grow h m n true old ps = some (some (old, new)) := by
  unfold checkGrowth
  rw [← all_length (r := old)]
  by_cases hp : 0 < m ∧ m ≤ n ∧ ps.all (fun p => p.length == old.length) = true
  · rw [if_pos hp, Option.map_eq_some_iff]
    constructor
    · rintro ⟨o, e, h2⟩
      exact ⟨hp, by rw [e, eq_of_beq h2]⟩
    · rintro ⟨-, e⟩
      exact ⟨_, e, beq_self_eq_true _⟩
  · rw [if_neg hp]
    constructor
    · intro h; cases h
    · rintro ⟨h, -⟩
      exact absurd h hp

variable (v : Variant)

/-- **The holder of a log can always prove that it has only grown**: for every number `m` of first items there is a proof that is accepted; nothing panics. -/
theorem C157_complete (m : Mode) (ds : List Bytes) (hs : ∀ d ∈ ds, d.length < 2 ^ 61 - 1) (k : Nat) (hk : 0 < k) (hkn : k ≤ ds.length) :
    ∃ old new ps, root (Model.Sha2.wrapper v.code m) (ds.take k) = some old ∧ root (Model.Sha2.wrapper v.code m) ds = some new ∧
      growth (Model.Sha2.wrapper v.code m) k true ds = some ps ∧ checkGrowth (Model.Sha2.wrapper v.code m) k ds.length old new ps = some true := by
  obtain ⟨ps, o, w, h1, h2, h3, h4, h5, h6, h7⟩ := growth_complete (total_code v m) ds hs k hk hkn true
  exact ⟨o, w, ps, h2, h3, h1, checkGrowth_grow.mpr ⟨⟨hk, hkn, fun p hp => (h4 p hp).trans h5.symm⟩, h7 o fun _ => rfl⟩⟩

/-- **An accepted proof tells the truth**: if it is accepted for the hashes of two lists, the second list begins with the first, or the texts that are hashed contain a collision of the hash
function. -/
theorem C157_only_grows (m : Mode) (ds ds' : List Bytes) (hs : ∀ d ∈ ds, d.length < 2 ^ 61 - 1) (hs' : ∀ d ∈ ds', d.length < 2 ^ 61 - 1) (ps : List Bytes) (old new : Bytes)
    (hr : root (Model.Sha2.wrapper v.code m) ds = some old) (hr' : root (Model.Sha2.wrapper v.code m) ds' = some new)
    (hc : checkGrowth (Model.Sha2.wrapper v.code m) ds.length ds'.length old new ps = some true) (hne : ¬ ds <+: ds') :
    ∃ x y, x ≠ y ∧ Model.Sha2.wrapper v.code m x = Model.Sha2.wrapper v.code m y ∧ (Model.Sha2.wrapper v.code m x).isSome ∧
      (∀ z, z = x ∨ z = y → z ∈ Spec.Merkle.texts (Model.Sha2.wrapper v.code m) ds ∨ z ∈ Spec.Merkle.texts (Model.Sha2.wrapper v.code m) ds' ∨
        z ∈ growTexts (Model.Sha2.wrapper v.code m) ds.length ds'.length true old ps) := by
  obtain ⟨⟨h1, h2, h3⟩, h4⟩ := checkGrowth_grow.mp hc
  obtain ⟨r', e, l⟩ := root_total (total_code v m) ds hs
  obtain rfl : r' = old := Option.some.inj (e.symm.trans hr)
  rcases growth_sound (total_code v m) ds' hs' ds hs h1 h2 true r' l ps (fun p hp => (h3 p hp).trans l) hr hr' h4 with h5 | ⟨x, hx, y, hy, c1, c2, c3⟩
  · exact absurd (h5 ▸ List.take_prefix _ _) hne
  · refine ⟨x, y, c1, c3, c2, ?_⟩
    unfold logTexts at hx hy
    simp only [List.mem_append] at hx hy
    rintro z (rfl | rfl)
    · tauto
    · tauto

/-! ## Over a random compression function -/

section
variable {w : Nat} (hp : Bytes → Prober w Bytes)

/-- Compute both hashes from a proof, and record texts with their hashes. -/
def growP (m n : Nat) (known : Bool) (old : Bytes) : List Bytes → Prober w (Option (Bytes × Bytes) × List (Bytes × Bytes))
  | [] => .stop (if m = n ∧ known then some (old, old) else none, [])
  | p :: ps =>
    if m = n then .stop (if known = false ∧ ps = [] then some (p, p) else none, [])
    else if m ≤ split n then andThen (growP m (split n) known old ps) fun
      | (none, t) => .stop (none, t)
      | (some (o, w), t) => andThen (hp (1 :: (w ++ p))) fun y => .stop (some (o, y), t ++ [(1 :: (w ++ p), y)])
    else andThen (growP (m - split n) (n - split n) false old ps) fun
      | (none, t) => .stop (none, t)
      | (some (o, w), t) => andThen (hp (1 :: (p ++ o))) fun y => andThen (hp (1 :: (p ++ w))) fun z =>
          .stop (some (y, z), t ++ [(1 :: (p ++ o), y), (1 :: (p ++ w), z)])

variable {hp} {f : Oct w → Bytes → Oct w} {h : Bytes → Option Bytes} {B s : Nat}

theorem growP_run (T : Total h B s) (hr : ∀ x, x.length ≤ B → h x = some ((hp x).run f)) (old : Bytes) (ho : old.length = s) (ps : List Bytes) (hps : ∀ p ∈ ps, p.length = s)
    (m n : Nat) (known : Bool) :
    grow h m n known old ps = some ((growP hp m n known old ps).run f).1 ∧ ((growP hp m n known old ps).run f).2 = logged h (growTexts h m n known old ps) := by
  induction ps generalizing m n known with
  | nil => rw [grow, growTexts, growP]; exact ⟨rfl, rfl⟩
  | cons p ps ih =>
    have hps' : ∀ q ∈ ps, q.length = s := fun q hq => hps q (List.mem_cons_of_mem _ hq)
    have lp := hps p (by simp)
    rw [grow, growTexts, growP]
    split
    · exact ⟨rfl, rfl⟩
    split
    · obtain ⟨i1, i2⟩ := ih hps' m (split n) known
      obtain ⟨r, er, lr⟩ := grow_total T old ho ps hps' m (split n) known
      rw [andThen_run]
      obtain ⟨z, hz⟩ : ∃ z, z = (growP hp m (split n) known old ps).run f := ⟨_, rfl⟩
      rw [← hz] at i1 i2 ⊢
      obtain ⟨z1, z2⟩ := z
      simp only at i1 i2
      obtain rfl : z1 = r := Option.some.inj (i1.symm.trans er)
      rw [er]
      rcases z1 with _ | ⟨o, x⟩
      · exact ⟨rfl, i2⟩
      · have hx := hr _ (node_short T (lr o x rfl).2 lp)
        simp only [Option.bind_eq_bind, Option.bind_some, andThen_run, Prober.run, hx, true_and]
        unfold logged at i2 ⊢
        rw [List.map_append, List.map_cons, List.map_nil, hx, Option.getD_some, i2]
    · obtain ⟨i1, i2⟩ := ih hps' (m - split n) (n - split n) false
      obtain ⟨r, er, lr⟩ := grow_total T old ho ps hps' (m - split n) (n - split n) false
      rw [andThen_run]
      obtain ⟨z, hz⟩ : ∃ z, z = (growP hp (m - split n) (n - split n) false old ps).run f := ⟨_, rfl⟩
      rw [← hz] at i1 i2 ⊢
      obtain ⟨z1, z2⟩ := z
      simp only at i1 i2
      obtain rfl : z1 = r := Option.some.inj (i1.symm.trans er)
      rw [er]
      rcases z1 with _ | ⟨o, x⟩
      · exact ⟨rfl, i2⟩
      · have hx := hr _ (node_short T lp (lr o x rfl).1)
        have hy := hr _ (node_short T lp (lr o x rfl).2)
        simp only [Option.bind_eq_bind, Option.bind_some, andThen_run, Prober.run, hx, hy, true_and]
        unfold logged at i2 ⊢
        rw [List.map_append, List.map_cons, List.map_cons, List.map_nil, hx, hy, Option.getD_some, Option.getD_some, i2]

theorem growP_within {blk c : Nat} (hw : ∀ x, (hp x).Within blk c) (old : Bytes) (ps : List Bytes) (m n : Nat) (known : Bool) :
    (growP hp m n known old ps).Within blk (2 * ps.length * c) := by
  induction ps generalizing m n known with
  | nil => rw [growP]; trivial
  | cons p ps ih =>
    have e : 2 * (p :: ps).length * c = 2 * ps.length * c + (c + (c + 0)) := by
      rw [List.length_cons]; ring
    rw [growP, e]
    split
    · trivial
    split
    · refine andThen_within _ _ (ih _ _ _) fun r => ?_
      obtain ⟨_ | ⟨o, x⟩, t⟩ := r
      · trivial
      · exact andThen_within _ _ (hw _) fun y => stop_within _
    · refine andThen_within _ _ (ih _ _ _) fun r => ?_
      obtain ⟨_ | ⟨o, x⟩, t⟩ := r
      · trivial
      · exact andThen_within _ _ (hw _) fun y => andThen_within (q := 0) _ _ (hw _) fun z => stop_within _

end

theorem growTexts_short {h : Bytes → Option Bytes} {B s : Nat} (T : Total h B s) (old : Bytes) (ho : old.length = s) (ps : List Bytes) (hps : ∀ p ∈ ps, p.length = s) (m n : Nat)
    (known : Bool) : ∀ x ∈ growTexts h m n known old ps, x.length ≤ B := by
  induction ps generalizing m n known with
  | nil => rw [growTexts]; simp
  | cons p ps ih =>
    have hps' : ∀ q ∈ ps, q.length = s := fun q hq => hps q (List.mem_cons_of_mem _ hq)
    have lp := hps p (by simp)
    rw [growTexts]
    split
    · simp
    split
    · obtain ⟨r, er, lr⟩ := grow_total T old ho ps hps' m (split n) known
      rw [er]
      rcases r with _ | ⟨o, w⟩
      · exact ih hps' _ _ _
      · intro x hx
        rw [List.mem_append, List.mem_singleton] at hx
        rcases hx with hx | rfl
        · exact ih hps' _ _ _ x hx
        · exact node_short T (lr o w rfl).2 lp
    · obtain ⟨r, er, lr⟩ := grow_total T old ho ps hps' (m - split n) (n - split n) false
      rw [er]
      rcases r with _ | ⟨o, w⟩
      · exact ih hps' _ _ _
      · intro x hx
        simp only [List.mem_append, List.mem_cons, List.not_mem_nil, or_false] at hx
        rcases hx with hx | rfl | rfl
        · exact ih hps' _ _ _ x hx
        · exact node_short T lp (lr o w rfl).1
        · exact node_short T lp (lr o w rfl).2

/-- The attacker against `C157_random`, as one who looks for a collision. -/
def growthFinder (n N : Nat) (X : Prober v.width (List Bytes × List Bytes × List Bytes)) : Prober v.width (Bytes × Bytes) :=
  andThen X fun r => if Merkle.Fits n N r.1 ∧ Merkle.Fits n N r.2.1 ∧ r.2.2.length ≤ n then
    andThen (rootP (digestP v (textLimit v N)) r.1) fun a => andThen (rootP (digestP v (textLimit v N)) r.2.1) fun b =>
      andThen (growP (digestP v (textLimit v N)) r.1.length r.2.1.length true a.1 r.2.2) fun c =>
        .stop (findPair (a.2 ++ b.2 ++ c.2) (a.2 ++ b.2 ++ c.2))
  else .stop ([], [])

theorem growthFinder_within {n N p : Nat} {X : Prober v.width (List Bytes × List Bytes × List Bytes)} (hX : X.Within v.block p) :
    (growthFinder v n N X).Within v.block (p + (6 * n + 2) * v.blocks (textLimit v N)) := by
  refine andThen_within _ _ hX fun r => ?_
  split
  · rename_i hf
    refine KeyedCollision.within_mono _ (andThen_within _ _ (rootP_within (digestP_within v _) r.1) fun a => andThen_within _ _ (rootP_within (digestP_within v _) r.2.1) fun b =>
      andThen_within (q := 0) _ _ (growP_within (digestP_within v _) _ _ _ _ _) fun c => stop_within _) ?_
    rw [Nat.add_zero, ← Nat.add_mul, ← Nat.add_mul]
    have h1 := hf.1.1
    have h2 := hf.2.1.1
    have h3 := hf.2.2
    exact Nat.mul_le_mul_right _ (by omega)
  · trivial

/-- The number of compressions an attacker needs who uses `p` of them and whose trees and proof are then computed. -/
def logCost (p n N : Nat) : Nat := p + (6 * n + 4) * v.blocks (textLimit v N)

/-- **Nobody finds a proof that a log has only grown, when it has not and the compression function is random.** The attacker evaluates it at most `p` times and names two lists of at most `n`
items of at most `N` bytes, of which the second does not begin with the first, and a proof that is accepted for them. -/
theorem C157_random (m : Mode) (n N : Nat) (hN : textLimit v N < 2 ^ 61) (X : Prober v.width (List Bytes × List Bytes × List Bytes)) (p : Nat) (hX : X.Within v.block p) :
    prob (fun F : Fn v.width v.block => ∃ ds ds' ps old new, X.run (fn F) = (ds, ds', ps) ∧ ¬ ds <+: ds' ∧ ds'.length ≤ n ∧ (∀ d ∈ ds, d.length ≤ N) ∧ (∀ d ∈ ds', d.length ≤ N) ∧
      root (Model.Sha2.wrapper (v.codeWith (fn F)) m) ds = some old ∧ root (Model.Sha2.wrapper (v.codeWith (fn F)) m) ds' = some new ∧
      checkGrowth (Model.Sha2.wrapper (v.codeWith (fn F)) m) ds.length ds'.length old new ps = some true) ≤
    (logCost v p n N) * (logCost v p n N + 1) / 256 ^ v.size := by
  have key := C109_collision v m (textLimit v N) hN (growthFinder v n N X) _ (growthFinder_within v (n := n) (N := N) hX)
  have ec : p + (6 * n + 2) * v.blocks (textLimit v N) + 2 * v.blocks (textLimit v N) = logCost v p n N := by unfold logCost; rw [Nat.add_assoc, ← Nat.add_mul]
  have ec' : ((p + (6 * n + 2) * v.blocks (textLimit v N) : Nat) : ℚ) + 2 * (v.blocks (textLimit v N) : Nat) = (logCost v p n N : Nat) := by rw [← ec]; push_cast; rfl
  rw [ec'] at key
  refine le_trans (prob_mono fun F hF => ?_) key
  obtain ⟨ds, ds', ps, old, new, hr, hne, h2, h3, h4, h5, h6, h7⟩ := hF
  have T := total_limit v (fn F) m N hN
  have hs := short_limit v h3
  have hs' := short_limit v h4
  obtain ⟨r', e, l⟩ := root_total T ds hs
  obtain rfl : r' = old := Option.some.inj (e.symm.trans h5)
  obtain ⟨⟨g0, g1, g2⟩, g3⟩ := checkGrowth_grow.mp h7
  have g2 : ∀ p ∈ ps, p.length = v.size := fun p hp => (g2 p hp).trans l
  have hrun := fun x hx => digestP_run v (textLimit v N) hN F m x hx
  have hc := (growth_sound T ds' hs' ds hs g0 g1 true r' l ps g2 e h6 g3).resolve_left fun h => hne (h ▸ List.take_prefix _ _)
  have ts := growTexts_short T r' l ps g2 ds.length ds'.length true
  have hall : ∀ x ∈ logTexts (Model.Sha2.wrapper (v.codeWith (fn F)) m) ds ds' true r' ps, x.length ≤ textLimit v N := by
    intro x hx
    unfold logTexts at hx
    rw [List.mem_append, List.mem_append] at hx
    rcases hx with (hx | hx) | hx
    · exact texts_short T ds hs x hx
    · exact texts_short T ds' hs' x hx
    · exact ts x hx
  obtain ⟨x, hx, y, hy, e1, e2, e3⟩ := findPair_spec (fun x hx => ⟨_, hrun x (hall x hx)⟩) (fun x hx => ⟨_, hrun x (hall x hx)⟩) hc
  refine ⟨x, y, ?_, e2, hall x hx, hall y hy, e3⟩
  unfold growthFinder
  have hdep := grow_depth r' ps ds.length ds'.length true g0 g1 g3
  obtain ⟨a1, a2⟩ := rootP_run T hrun ds hs
  have ha : ((rootP (digestP v (textLimit v N)) ds).run (fn F)).1 = r' := Option.some.inj (a1.symm.trans e)
  rw [andThen_run, hr, if_pos ⟨⟨show ds.length ≤ n by omega, h3⟩, ⟨h2, h4⟩, by show ps.length ≤ n; omega⟩, andThen_run, andThen_run, andThen_run]
  show findPair _ _ = _
  rw [ha, a2, (rootP_run T hrun ds' hs').2, (growP_run T hrun r' l ps g2 ds.length ds'.length true).2, ← e1]
  unfold logTexts logged
  rw [List.map_append, List.map_append]

/-! ## Concrete cases -/

/-- A log of three items has grown from its first two: SHA-256 accepts the proof, which is the hash of the third item. -/
example : ∃ old new ps, root (Model.Sha2.wrapper Variant.sha256.code .debug) [[1], [2, 2]] = some old ∧ root (Model.Sha2.wrapper Variant.sha256.code .debug) [[1], [2, 2], [3]] = some new ∧
    growth (Model.Sha2.wrapper Variant.sha256.code .debug) 2 true [[1], [2, 2], [3]] = some ps ∧ checkGrowth (Model.Sha2.wrapper Variant.sha256.code .debug) 2 3 old new ps = some true :=
  C157_complete .sha256 .debug [[1], [2, 2], [3]] (by intro d hd; simp at hd; rcases hd with rfl | rfl | rfl <;> simp) 2 (by decide) (by decide)

theorem growth_three (h : Bytes → Option Bytes) (a b c : Bytes) : growth h 2 true [a, b, c] = (h (0 :: c)).map fun x => [x] := by
  have s3 : split 3 = 2 := by decide
  rw [growth.eq_def, if_pos (by simp)]
  simp only [List.length_cons, List.length_nil, Nat.zero_add, Nat.reduceAdd, s3, List.take_succ_cons, List.take_zero, List.drop_succ_cons, List.drop_zero, root_one, le_refl, if_true]
  rw [growth.eq_def, if_neg (by simp)]
  cases h (0 :: c) <;> rfl

/-- A log whose second item was replaced: a proof that it has only grown shows a collision of SHA-512. -/
example (old new : Bytes) (ps : List Bytes) (hr : root (Model.Sha2.wrapper Variant.sha512.code .release) [[1], [2]] = some old)
    (hr' : root (Model.Sha2.wrapper Variant.sha512.code .release) [[1], [9], [3]] = some new)
    (hc : checkGrowth (Model.Sha2.wrapper Variant.sha512.code .release) 2 3 old new ps = some true) :
    ∃ x y, x ≠ y ∧ Model.Sha2.wrapper Variant.sha512.code .release x = Model.Sha2.wrapper Variant.sha512.code .release y :=
  have ⟨x, y, h1, h2, _⟩ := C157_only_grows .sha512 .release [[1], [2]] [[1], [9], [3]] (by intro d hd; simp at hd; rcases hd with rfl | rfl <;> simp)
    (by intro d hd; simp at hd; rcases hd with rfl | rfl | rfl <;> simp) ps old new hr hr' hc (by simp [List.cons_prefix_cons])
  ⟨x, y, h1, h2⟩

/-- With SHA-256, logs of up to `2^20` items of up to `2^10` bytes and an attacker who computes `2^60` compressions: a chance of at most `2^-134`. -/
example (X : Prober Variant.sha256.width (List Bytes × List Bytes × List Bytes)) (hX : X.Within Variant.sha256.block (2 ^ 60)) :
    prob (fun F : Fn Variant.sha256.width Variant.sha256.block => ∃ ds ds' ps old new, X.run (fn F) = (ds, ds', ps) ∧ ¬ ds <+: ds' ∧ ds'.length ≤ 2 ^ 20 ∧
      (∀ d ∈ ds, d.length ≤ 2 ^ 10) ∧ (∀ d ∈ ds', d.length ≤ 2 ^ 10) ∧
      root (Model.Sha2.wrapper (Variant.sha256.codeWith (fn F)) .debug) ds = some old ∧ root (Model.Sha2.wrapper (Variant.sha256.codeWith (fn F)) .debug) ds' = some new ∧
      checkGrowth (Model.Sha2.wrapper (Variant.sha256.codeWith (fn F)) .debug) ds.length ds'.length old new ps = some true) ≤ 1 / 2 ^ 134 := by
  refine le_trans (C157_random .sha256 .debug (2 ^ 20) (2 ^ 10) (by decide) X (2 ^ 60) hX) ?_
  have e : logCost .sha256 (2 ^ 60) (2 ^ 20) (2 ^ 10) = 2 ^ 60 + (6 * 2 ^ 20 + 4) * 18 := by decide +kernel
  rw [e, show Variant.sha256.size = 32 from rfl]
  norm_num

end CryptoPure.Props.MerkleLog
