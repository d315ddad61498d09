import Verif.Props.KeyedCollision
import Verif.Proofs.Merkle

/-! # C155: hash trees made with a hash function of the crate

`Spec.Merkle` builds the trees of RFC 6962 with a hash function; here it is the code of src/sha2.rs (`Model.Sha2.wrapper`). -/

namespace CryptoPure.Props.Merkle
open CryptoPure.Model CryptoPure.Props CryptoPure.Props.KeyedCollision Spec.Sha2 Spec.Merkle Proofs Proofs.HmacSha Proofs.HmacIdeal Proofs.ShaIdeal Proofs.Merkle
open KdfGame (Prober)
open Game (prob prob_mono)

theorem total_code (v : Variant) (m : Mode) : Total (Model.Sha2.wrapper v.code m) (2 ^ 61 - 1) v.size := by
  refine ⟨fun x hx => ⟨v.fips x, C02_sha2_fips v m x (by omega), ?_⟩, by cases v <;> decide⟩
  have := v.lawful.hashLen x
  cases v <;> exact this

theorem total_with (v : Variant) (f : Oct v.width → Bytes → Oct v.width) (m : Mode) : Total (Model.Sha2.wrapper (v.codeWith f) m) (2 ^ 61 - 1) v.size := by
  obtain ⟨R, L, hd, -⟩ := codeWith_lawful' v f
  exact ⟨fun x hx => ⟨_, wrapper_with v f m x (by omega), (L.hashLen x).trans hd⟩, by cases v <;> decide⟩

theorem all_length {r : Bytes} {ps : List Bytes} : ps.all (fun p => p.length == r.length) = true ↔ ∀ p ∈ ps, p.length = r.length := by simp

theorem check_climb {h : Bytes → Option Bytes} {n i : Nat} {d : Bytes} {ps : List Bytes} {r : Bytes} :
    check h n i d ps r = some true ↔ (∀ p ∈ ps, p.length = r.length) ∧ climb h n i d ps = some (some r) := by
  unfold check
  by_cases hp : ps.all (fun p => p.length == r.length) = true
  · rw [if_pos hp, Option.map_eq_some_iff]
    constructor
    · rintro ⟨o, e, h2⟩
      exact ⟨all_length.mp hp, by rw [e, eq_of_beq h2]⟩
    · rintro ⟨-, e⟩
      exact ⟨_, e, beq_self_eq_true _⟩
  · rw [if_neg hp]
    constructor
    · intro h; cases h
    · rintro ⟨h, -⟩
      exact absurd (all_length.mpr h) hp

variable (v : Variant)

/-- **Every item has a proof that is accepted**; nothing panics, for items of fewer than `2^61 - 1` bytes. -/
theorem C155_complete (m : Mode) (ds : List Bytes) (hs : ∀ d ∈ ds, d.length < 2 ^ 61 - 1) (i : Nat) (d : Bytes) (hi : ds[i]? = some d) :
    ∃ r ps, root (Model.Sha2.wrapper v.code m) ds = some r ∧ path (Model.Sha2.wrapper v.code m) i ds = some ps ∧
      check (Model.Sha2.wrapper v.code m) ds.length i d ps r = some true := by
  obtain ⟨r, ps, h1, h2, h3, h4, h5⟩ := complete (total_code v m) ds hs i d hi
  exact ⟨r, ps, h1, h2, check_climb.mpr ⟨fun p hp => (h4 p hp).trans h3.symm, h5⟩⟩

/-- **A root stands for one list of items**: two different lists, of equal or different lengths, with one root contain a collision of the hash function, among the texts that are hashed
to compute the two roots. -/
theorem C155_one_list (m : Mode) (ds ds' : List Bytes) (hs : ∀ d ∈ ds, d.length < 2 ^ 61 - 1) (hs' : ∀ d ∈ ds', d.length < 2 ^ 61 - 1) (hne : ds ≠ ds') (r : Bytes)
    (hr : root (Model.Sha2.wrapper v.code m) ds = some r) (hr' : root (Model.Sha2.wrapper v.code m) ds' = some r) :
    Collide (Model.Sha2.wrapper v.code m) (Spec.Merkle.texts (Model.Sha2.wrapper v.code m) ds) (Spec.Merkle.texts (Model.Sha2.wrapper v.code m) ds') :=
  binding (total_code v m) ds hs ds' hs' hr hr' hne

/-- **An accepted proof tells the truth**: if it is accepted for `d` as item `i` of the tree of `ds`, then item `i` of `ds` is `d`, or the texts that are hashed contain a collision of the
hash function. -/
theorem C155_one_item (m : Mode) (ds : List Bytes) (hs : ∀ d ∈ ds, d.length < 2 ^ 61 - 1) (i : Nat) (d : Bytes) (hd : d.length < 2 ^ 61 - 1) (ps : List Bytes) (r : Bytes)
    (hr : root (Model.Sha2.wrapper v.code m) ds = some r) (hc : check (Model.Sha2.wrapper v.code m) ds.length i d ps r = some true) (hne : ds[i]? ≠ some d) :
    Collide (Model.Sha2.wrapper v.code m) (climbTexts (Model.Sha2.wrapper v.code m) ds.length i d ps) (Spec.Merkle.texts (Model.Sha2.wrapper v.code m) ds) := by
  obtain ⟨h1, h2⟩ := check_climb.mp hc
  obtain ⟨r', e, l⟩ := root_total (total_code v m) ds hs
  obtain rfl : r' = r := Option.some.inj (e.symm.trans hr)
  exact (inclusion (total_code v m) ds hs d hd ps (fun p hp => (h1 p hp).trans l) i hr h2).resolve_left hne

/-! ## Over a random compression function -/

theorem stop_within {w : Nat} {R : Type} {B p : Nat} (r : R) : (Prober.stop (w := w) r).Within B p := trivial

section
variable {w : Nat} (hp : Bytes → Prober w Bytes)

/-- Compute the root, and record texts with their hashes. -/
def rootP (ds : List Bytes) : Prober w (Bytes × List (Bytes × Bytes)) :=
  if 2 ≤ ds.length then
    andThen (rootP (ds.take (split ds.length))) fun a => andThen (rootP (ds.drop (split ds.length))) fun b =>
      andThen (hp (1 :: (a.1 ++ b.1))) fun y => .stop (y, a.2 ++ b.2 ++ [(1 :: (a.1 ++ b.1), y)])
  else match ds with
    | [] => andThen (hp []) fun y => .stop (y, [([], y)])
    | d :: _ => andThen (hp (0 :: d)) fun y => .stop (y, [(0 :: d, y)])
termination_by ds.length
decreasing_by
  · have := split_lt (n := ds.length) (by assumption)
    simp only [List.length_take]; omega
  · have := split_pos ds.length
    simp only [List.length_drop]; omega

/-- Compute the root from a proof, and record texts with their hashes. -/
def climbP (n i : Nat) (d : Bytes) : List Bytes → Prober w (Option Bytes × List (Bytes × Bytes))
  | [] => if n = 1 ∧ i = 0 then andThen (hp (0 :: d)) fun y => .stop (some y, [(0 :: d, y)]) else .stop (none, [])
  | p :: ps =>
    if n < 2 then .stop (none, [])
    else if i < split n then andThen (climbP (split n) i d ps) fun
      | (none, t) => .stop (none, t)
      | (some l, t) => andThen (hp (1 :: (l ++ p))) fun y => .stop (some y, t ++ [(1 :: (l ++ p), y)])
    else andThen (climbP (n - split n) (i - split n) d ps) fun
      | (none, t) => .stop (none, t)
      | (some r, t) => andThen (hp (1 :: (p ++ r))) fun y => .stop (some y, t ++ [(1 :: (p ++ r), y)])

variable {hp} {f : Oct w → Bytes → Oct w} {h : Bytes → Option Bytes} {B s : Nat}

/-- Texts with their hashes. -/
def logged (h : Bytes → Option Bytes) (xs : List Bytes) : List (Bytes × Bytes) := xs.map fun x => (x, (h x).getD [])

theorem rootP_run (T : Total h B s) (hr : ∀ x, x.length ≤ B → h x = some ((hp x).run f)) (ds : List Bytes) (hs : Short B ds) :
    root h ds = some ((rootP hp ds).run f).1 ∧ ((rootP hp ds).run f).2 = logged h (Spec.Merkle.texts h ds) := by
  induction ds using tree_ind with
  | h0 =>
    rw [root_nil, texts_nil, rootP.eq_def, if_neg (by simp)]
    simp only [andThen_run, Prober.run, logged, List.map_cons, List.map_nil, hr [] (by simp), Option.getD_some, and_self]
  | h1 d =>
    have := hs d (by simp)
    rw [root_one, texts_one, rootP.eq_def, if_neg (by simp)]
    simp only [andThen_run, Prober.run, logged, List.map_cons, List.map_nil, hr (0 :: d) (by simp; omega), Option.getD_some, and_self]
  | h2 ds hl ih1 ih2 =>
    obtain ⟨r, e, l⟩ := root_total T ds hs
    obtain ⟨a, b, a1, b1, la, lb, e', et⟩ := root_parts T hs hl e
    obtain ⟨i1, i2⟩ := ih1 (hs.take _)
    obtain ⟨j1, j2⟩ := ih2 (hs.drop _)
    have ha : ((rootP hp (ds.take (split ds.length))).run f).1 = a := Option.some.inj (i1.symm.trans a1)
    have hb : ((rootP hp (ds.drop (split ds.length))).run f).1 = b := Option.some.inj (j1.symm.trans b1)
    rw [e, et, rootP.eq_def, if_pos hl]
    simp only [andThen_run, Prober.run, ha, hb, i2, j2]
    have := hr _ (node_short T la lb)
    rw [e', Option.some.injEq] at this
    rw [← this]
    refine ⟨rfl, ?_⟩
    unfold logged
    rw [List.map_append, List.map_append, List.map_cons, List.map_nil, e', Option.getD_some]

theorem climbP_run (T : Total h B s) (hr : ∀ x, x.length ≤ B → h x = some ((hp x).run f)) (d : Bytes) (hd : d.length < B) (ps : List Bytes) (hps : ∀ p ∈ ps, p.length = s) (n i : Nat) :
    climb h n i d ps = some ((climbP hp n i d ps).run f).1 ∧ ((climbP hp n i d ps).run f).2 = logged h (climbTexts h n i d ps) := by
  induction ps generalizing n i with
  | nil =>
    rw [climb, climbTexts, climbP]
    split
    · simp only [andThen_run, Prober.run, logged, List.map_cons, List.map_nil, hr (0 :: d) (by simp; omega), Option.getD_some, Option.map_some, and_self]
    · exact ⟨rfl, rfl⟩
  | cons p ps ih =>
    have hps' : ∀ q ∈ ps, q.length = s := fun q hq => hps q (List.mem_cons_of_mem _ hq)
    have lp := hps p (by simp)
    rw [climb, climbTexts, climbP]
    split
    · exact ⟨rfl, rfl⟩
    split
    · obtain ⟨i1, i2⟩ := ih hps' (split n) i
      obtain ⟨o, eo, lo⟩ := climb_total T d hd ps hps' (split n) i
      have ho : ((climbP hp (split n) i d ps).run f).1 = o := Option.some.inj (i1.symm.trans eo)
      rw [andThen_run]
      obtain ⟨z, hz⟩ : ∃ z, z = (climbP hp (split n) i d ps).run f := ⟨_, rfl⟩
      rw [← hz] at ho i2 ⊢
      obtain ⟨z1, z2⟩ := z
      simp only at ho i2
      subst ho
      rw [eo]
      cases z1 with
      | none => exact ⟨rfl, i2⟩
      | some l =>
        have hx := hr _ (node_short T (lo l rfl) lp)
        simp only [Option.bind_eq_bind, Option.bind_some, andThen_run, Prober.run, hx, Option.map_some, true_and]
        unfold logged at i2 ⊢
        rw [List.map_append, List.map_cons, List.map_nil, hx, Option.getD_some, i2]
    · obtain ⟨i1, i2⟩ := ih hps' (n - split n) (i - split n)
      obtain ⟨o, eo, lo⟩ := climb_total T d hd ps hps' (n - split n) (i - split n)
      have ho : ((climbP hp (n - split n) (i - split n) d ps).run f).1 = o := Option.some.inj (i1.symm.trans eo)
      rw [andThen_run]
      obtain ⟨z, hz⟩ : ∃ z, z = (climbP hp (n - split n) (i - split n) d ps).run f := ⟨_, rfl⟩
      rw [← hz] at ho i2 ⊢
      obtain ⟨z1, z2⟩ := z
      simp only at ho i2
      subst ho
      rw [eo]
      cases z1 with
      | none => exact ⟨rfl, i2⟩
      | some l =>
        have hx := hr _ (node_short T lp (lo l rfl))
        simp only [Option.bind_eq_bind, Option.bind_some, andThen_run, Prober.run, hx, Option.map_some, true_and]
        unfold logged at i2 ⊢
        rw [List.map_append, List.map_cons, List.map_nil, hx, Option.getD_some, i2]

theorem rootP_within {blk c : Nat} (hw : ∀ x, (hp x).Within blk c) (ds : List Bytes) : (rootP hp ds).Within blk ((2 * ds.length - 1 + (1 - ds.length)) * c) := by
  induction ds using tree_ind with
  | h0 =>
    rw [rootP.eq_def, if_neg (by simp)]
    simpa using andThen_within (q := 0) _ _ (hw []) fun _ => stop_within _
  | h1 d =>
    rw [rootP.eq_def, if_neg (by simp)]
    simpa using andThen_within (q := 0) _ _ (hw (0 :: d)) fun _ => stop_within _
  | h2 ds hl ih1 ih2 =>
    rw [rootP.eq_def, if_pos hl]
    have h1 := split_pos ds.length
    have h2 := split_lt hl
    have lt : (ds.take (split ds.length)).length = split ds.length := by rw [List.length_take]; omega
    have ld : (ds.drop (split ds.length)).length = ds.length - split ds.length := List.length_drop
    rw [lt] at ih1
    rw [ld] at ih2
    refine KeyedCollision.within_mono _ (andThen_within _ _ ih1 fun a => andThen_within _ _ ih2 fun b => andThen_within (q := 0) _ _ (hw _) fun y => stop_within _) ?_
    rw [Nat.add_zero, ← Nat.add_assoc, ← Nat.add_mul, ← Nat.succ_mul]
    exact Nat.mul_le_mul_right _ (by omega)

theorem climbP_within {blk c : Nat} (hw : ∀ x, (hp x).Within blk c) (d : Bytes) (ps : List Bytes) (n i : Nat) : (climbP hp n i d ps).Within blk ((ps.length + 1) * c) := by
  induction ps generalizing n i with
  | nil =>
    rw [climbP]
    split
    · simpa using andThen_within (q := 0) _ _ (hw (0 :: d)) fun _ => stop_within _
    · trivial
  | cons p ps ih =>
    rw [climbP, List.length_cons, Nat.add_mul _ 1, Nat.one_mul]
    split
    · trivial
    split
    · refine andThen_within _ _ (ih _ _) fun r => ?_
      obtain ⟨_ | l, t⟩ := r
      · trivial
      · exact andThen_within (q := 0) _ _ (hw _) fun y => stop_within _
    · refine andThen_within _ _ (ih _ _) fun r => ?_
      obtain ⟨_ | l, t⟩ := r
      · trivial
      · exact andThen_within (q := 0) _ _ (hw _) fun y => stop_within _

/-- Two different texts with the same hash, one in each record. -/
def findPair (xs ys : List (Bytes × Bytes)) : Bytes × Bytes :=
  match (xs ×ˢ ys).find? fun z => z.1.1 != z.2.1 && z.1.2 == z.2.2 with
  | some z => (z.1.1, z.2.1)
  | none => ([], [])

theorem findPair_spec {xs ys : List Bytes} (hx : ∀ x ∈ xs, ∃ z, h x = some z) (hy : ∀ y ∈ ys, ∃ z, h y = some z) (hc : Collide h xs ys) :
    ∃ x ∈ xs, ∃ y ∈ ys, findPair (logged h xs) (logged h ys) = (x, y) ∧ x ≠ y ∧ h x = h y := by
  unfold findPair
  cases e : ((logged h xs) ×ˢ (logged h ys)).find? fun z => z.1.1 != z.2.1 && z.1.2 == z.2.2 with
  | none =>
    obtain ⟨x, h1, y, h2, h3, -, h4⟩ := hc
    have := List.find?_eq_none.mp e ((x, (h x).getD []), (y, (h y).getD []))
      (List.mem_product.mpr ⟨List.mem_map_of_mem h1, List.mem_map_of_mem h2⟩)
    simp [h3, h4] at this
  | some z =>
    obtain ⟨⟨x, a⟩, ⟨y, b⟩⟩ := z
    have h1 := List.mem_product.mp (List.mem_of_find?_eq_some e)
    have h2 := List.find?_some e
    simp only [logged, List.mem_map, Prod.mk.injEq] at h1
    obtain ⟨⟨x', hx', rfl, rfl⟩, ⟨y', hy', rfl, rfl⟩⟩ := h1
    simp only [Bool.and_eq_true, bne_iff_ne, ne_eq, beq_iff_eq] at h2
    obtain ⟨z, hz⟩ := hx x' hx'
    obtain ⟨z', hz'⟩ := hy y' hy'
    refine ⟨x', hx', y', hy', rfl, h2.1, ?_⟩
    have := h2.2
    rw [hz, hz'] at this ⊢
    exact congrArg some this

end

/-! The texts of a tree are short. -/

theorem texts_short {h : Bytes → Option Bytes} {B s : Nat} (T : Total h B s) (ds : List Bytes) (hs : Short B ds) : ∀ x ∈ Spec.Merkle.texts h ds, x.length ≤ B := by
  induction ds using tree_ind with
  | h0 => rw [texts_nil]; simp
  | h1 d => rw [texts_one]; have := hs d (by simp); simp; omega
  | h2 ds hl ih1 ih2 =>
    obtain ⟨r, e, -⟩ := root_total T ds hs
    obtain ⟨a, b, -, -, la, lb, -, et⟩ := root_parts T hs hl e
    intro x hx
    rw [et, List.mem_append, List.mem_append, List.mem_singleton] at hx
    rcases hx with (hx | hx) | rfl
    · exact ih1 (hs.take _) x hx
    · exact ih2 (hs.drop _) x hx
    · exact node_short T la lb

theorem climbTexts_short {h : Bytes → Option Bytes} {B s : Nat} (T : Total h B s) (d : Bytes) (hd : d.length < B) (ps : List Bytes) (hps : ∀ p ∈ ps, p.length = s) (n i : Nat) :
    ∀ x ∈ climbTexts h n i d ps, x.length ≤ B := by
  induction ps generalizing n i with
  | nil =>
    rw [climbTexts]
    split
    · simp; omega
    · simp
  | cons p ps ih =>
    have hps' : ∀ q ∈ ps, q.length = s := fun q hq => hps q (List.mem_cons_of_mem _ hq)
    have lp := hps p (by simp)
    rw [climbTexts]
    split
    · simp
    split
    · obtain ⟨o, eo, lo⟩ := climb_total T d hd ps hps' (split n) i
      rw [eo]
      cases o with
      | none => exact ih hps' _ _
      | some l =>
        intro x hx
        rw [List.mem_append, List.mem_singleton] at hx
        rcases hx with hx | rfl
        · exact ih hps' _ _ x hx
        · exact node_short T (lo l rfl) lp
    · obtain ⟨o, eo, lo⟩ := climb_total T d hd ps hps' (n - split n) (i - split n)
      rw [eo]
      cases o with
      | none => exact ih hps' _ _
      | some l =>
        intro x hx
        rw [List.mem_append, List.mem_singleton] at hx
        rcases hx with hx | rfl
        · exact ih hps' _ _ x hx
        · exact node_short T lp (lo l rfl)

/-- Compute a digest of a text of at most `B` bytes. -/
def digestP (B : Nat) (x : Bytes) : Prober v.width Bytes :=
  if x.length ≤ B then hashP v.alg (variant_params v).1 v.codeIv (variant_params v).2.2.1 x else .stop []

theorem digestP_within (B : Nat) (x : Bytes) : (digestP v B x).Within v.block (v.blocks B) := by
  unfold digestP
  split
  · rename_i hx
    have hb := variant_block v
    have hw : (hashP v.alg (variant_params v).1 v.codeIv (variant_params v).2.2.1 x).Within v.block (cost v.alg x.length) :=
      hb ▸ hashP_within v.alg (variant_params v).1 v.codeIv (variant_params v).2.2.1 x
    refine KeyedCollision.within_mono _ hw ?_
    rw [variant_cost]
    exact blocks_le v hx
  · trivial

theorem digestP_run (B : Nat) (hB : B < 2 ^ 61) (F : Fn v.width v.block) (m : Mode) (x : Bytes) (hx : x.length ≤ B) :
    Model.Sha2.wrapper (v.codeWith (fn F)) m x = some ((digestP v B x).run (fn F)) := by
  unfold digestP
  rw [if_pos hx, wrapper_with v _ m x (by omega)]
  have e : ∀ b (hb : v.alg.blockBytes = b) (G : Fn v.width b),
      digestF v.alg (fn G) v.codeIv v.size x = (hashP v.alg (variant_params v).1 v.codeIv (variant_params v).2.2.1 x).run (fn G) := by
    rintro _ rfl G
    exact (hashP_run v.alg (variant_params v).1 v.codeIv (variant_params v).2.2.1 G x).symm
  rw [e _ (variant_block v)]

/-- The longest text that is hashed for items of at most `N` bytes, or a longer one. -/
def textLimit (N : Nat) : Nat := N + 2 * v.size + 1

theorem total_limit (f : Oct v.width → Bytes → Oct v.width) (m : Mode) (N : Nat) (hN : textLimit v N < 2 ^ 61) : Total (Model.Sha2.wrapper (v.codeWith f) m) (textLimit v N) v.size :=
  ⟨fun x hx => (total_with v f m).ok x (by omega), by unfold textLimit; omega⟩

theorem short_limit {N : Nat} {ds : List Bytes} (hs : ∀ d ∈ ds, d.length ≤ N) : Short (textLimit v N) ds := fun d hd => by
  have := hs d hd
  unfold textLimit
  omega

/-- At most `n` items of at most `N` bytes. -/
def Fits (n N : Nat) (ds : List Bytes) : Prop := ds.length ≤ n ∧ ∀ d ∈ ds, d.length ≤ N

instance (n N : Nat) (ds : List Bytes) : Decidable (Fits n N ds) := inferInstanceAs (Decidable (_ ∧ _))

/-- The number of compressions an attacker needs who uses `p` of them and whose trees are then computed. -/
def treeCost (p n N : Nat) : Nat := p + (4 * n + 4) * v.blocks (textLimit v N)

/-- The attacker against `C155_random_list`, as one who looks for a collision. -/
def listFinder (n N : Nat) (X : Prober v.width (List Bytes × List Bytes)) : Prober v.width (Bytes × Bytes) :=
  andThen X fun r => if Fits n N r.1 ∧ Fits n N r.2 then
    andThen (rootP (digestP v (textLimit v N)) r.1) fun a => andThen (rootP (digestP v (textLimit v N)) r.2) fun b => .stop (findPair a.2 b.2)
  else .stop ([], [])

/-- The attacker against `C155_random_item`, as one who looks for a collision. -/
def itemFinder (n N : Nat) (X : Prober v.width (List Bytes × Nat × Bytes × List Bytes)) : Prober v.width (Bytes × Bytes) :=
  andThen X fun r => if Fits n N r.1 ∧ r.2.2.1.length ≤ N ∧ r.2.2.2.length ≤ n then
    andThen (climbP (digestP v (textLimit v N)) r.1.length r.2.1 r.2.2.1 r.2.2.2) fun a => andThen (rootP (digestP v (textLimit v N)) r.1) fun b => .stop (findPair a.2 b.2)
  else .stop ([], [])

theorem listFinder_within {n N p : Nat} {X : Prober v.width (List Bytes × List Bytes)} (hX : X.Within v.block p) :
    (listFinder v n N X).Within v.block (p + (4 * n + 2) * v.blocks (textLimit v N)) := by
  refine andThen_within _ _ hX fun r => ?_
  split
  · rename_i hf
    refine KeyedCollision.within_mono _ (andThen_within _ _ (rootP_within (digestP_within v _) r.1) fun a =>
      andThen_within (q := 0) _ _ (rootP_within (digestP_within v _) r.2) fun b => stop_within _) ?_
    rw [Nat.add_zero, ← Nat.add_mul]
    have h1 := hf.1.1
    have h2 := hf.2.1
    exact Nat.mul_le_mul_right _ (by omega)
  · trivial

theorem itemFinder_within {n N p : Nat} {X : Prober v.width (List Bytes × Nat × Bytes × List Bytes)} (hX : X.Within v.block p) :
    (itemFinder v n N X).Within v.block (p + (4 * n + 2) * v.blocks (textLimit v N)) := by
  refine andThen_within _ _ hX fun r => ?_
  split
  · rename_i hf
    refine KeyedCollision.within_mono _ (andThen_within _ _ (climbP_within (digestP_within v _) r.2.2.1 r.2.2.2 _ _) fun a =>
      andThen_within (q := 0) _ _ (rootP_within (digestP_within v _) r.1) fun b => stop_within _) ?_
    simp only [Nat.add_zero, ← Nat.add_mul]
    have h1 := hf.1.1
    have h2 := hf.2.2
    exact Nat.mul_le_mul_right _ (by omega)
  · trivial

theorem cost_eq (p n N : Nat) : p + (4 * n + 2) * v.blocks (textLimit v N) + 2 * v.blocks (textLimit v N) = treeCost v p n N := by
  unfold treeCost
  rw [Nat.add_assoc, ← Nat.add_mul]

/-- **Nobody finds two lists with one root when the compression function is random.** The attacker evaluates it at most `p` times and names two lists of at most `n` items of at most `N`
bytes. -/
theorem C155_random_list (m : Mode) (n N : Nat) (hN : textLimit v N < 2 ^ 61) (X : Prober v.width (List Bytes × List Bytes)) (p : Nat) (hX : X.Within v.block p) :
    prob (fun F : Fn v.width v.block => ∃ ds ds', X.run (fn F) = (ds, ds') ∧ ds ≠ ds' ∧ ds.length ≤ n ∧ ds'.length ≤ n ∧ (∀ d ∈ ds, d.length ≤ N) ∧ (∀ d ∈ ds', d.length ≤ N) ∧
      root (Model.Sha2.wrapper (v.codeWith (fn F)) m) ds = root (Model.Sha2.wrapper (v.codeWith (fn F)) m) ds') ≤
    (treeCost v p n N) * (treeCost v p n N + 1) / 256 ^ v.size := by
  have key := C109_collision v m (textLimit v N) hN (listFinder v n N X) _ (listFinder_within v (n := n) (N := N) hX)
  have ec := cost_eq v p n N
  have ec' : ((p + (4 * n + 2) * v.blocks (textLimit v N) : Nat) : ℚ) + 2 * (v.blocks (textLimit v N) : Nat) = (treeCost v p n N : Nat) := by rw [← ec]; push_cast; rfl
  rw [ec'] at key
  refine le_trans (prob_mono fun F hF => ?_) key
  obtain ⟨ds, ds', hr, hne, h1, h2, h3, h4, h5⟩ := hF
  have T := total_limit v (fn F) m N hN
  have hs := short_limit v h3
  have hs' := short_limit v h4
  obtain ⟨r, e, -⟩ := root_total T ds hs
  have hrun := fun x hx => digestP_run v (textLimit v N) hN F m x hx
  have hc := binding T ds hs ds' hs' e (h5 ▸ e) hne
  obtain ⟨x, hx, y, hy, e1, e2, e3⟩ := findPair_spec (fun x hx => ⟨_, hrun x (texts_short T ds hs x hx)⟩) (fun x hx => ⟨_, hrun x (texts_short T ds' hs' x hx)⟩) hc
  refine ⟨x, y, ?_, e2, texts_short T ds hs x hx, texts_short T ds' hs' y hy, e3⟩
  unfold listFinder
  rw [andThen_run, hr, if_pos ⟨⟨h1, h3⟩, ⟨h2, h4⟩⟩, andThen_run, andThen_run]
  show findPair _ _ = _
  rw [(rootP_run T hrun ds hs).2, (rootP_run T hrun ds' hs').2, e1]

/-- **Nobody finds a proof for a wrong item when the compression function is random**: for a list of at most `n` items of at most `N` bytes, an item `d` that is not number `i` of this list,
and a proof that is accepted for it. -/
theorem C155_random_item (m : Mode) (n N : Nat) (hN : textLimit v N < 2 ^ 61) (X : Prober v.width (List Bytes × Nat × Bytes × List Bytes)) (p : Nat) (hX : X.Within v.block p) :
    prob (fun F : Fn v.width v.block => ∃ ds i d ps r, X.run (fn F) = (ds, i, d, ps) ∧ ds[i]? ≠ some d ∧ ds.length ≤ n ∧ (∀ d ∈ ds, d.length ≤ N) ∧ d.length ≤ N ∧
      root (Model.Sha2.wrapper (v.codeWith (fn F)) m) ds = some r ∧ check (Model.Sha2.wrapper (v.codeWith (fn F)) m) ds.length i d ps r = some true) ≤
    (treeCost v p n N) * (treeCost v p n N + 1) / 256 ^ v.size := by
  have key := C109_collision v m (textLimit v N) hN (itemFinder v n N X) _ (itemFinder_within v (n := n) (N := N) hX)
  have ec := cost_eq v p n N
  have ec' : ((p + (4 * n + 2) * v.blocks (textLimit v N) : Nat) : ℚ) + 2 * (v.blocks (textLimit v N) : Nat) = (treeCost v p n N : Nat) := by rw [← ec]; push_cast; rfl
  rw [ec'] at key
  refine le_trans (prob_mono fun F hF => ?_) key
  obtain ⟨ds, i, d, ps, r, hr, hne, h1, h2, h3, h4, h5⟩ := hF
  have T := total_limit v (fn F) m N hN
  have hs := short_limit v h2
  have hd : d.length < textLimit v N := by unfold textLimit; omega
  obtain ⟨r', e, l⟩ := root_total T ds hs
  obtain rfl : r' = r := Option.some.inj (e.symm.trans h4)
  obtain ⟨g1, g2⟩ := check_climb.mp h5
  have g1 : ∀ p ∈ ps, p.length = v.size := fun p hp => (g1 p hp).trans l
  have hrun := fun x hx => digestP_run v (textLimit v N) hN F m x hx
  have hc := (inclusion T ds hs d hd ps g1 i e g2).resolve_left hne
  have ts := climbTexts_short T d hd ps g1 ds.length i
  obtain ⟨x, hx, y, hy, e1, e2, e3⟩ := findPair_spec (fun x hx => ⟨_, hrun x (ts x hx)⟩) (fun x hx => ⟨_, hrun x (texts_short T ds hs x hx)⟩) hc
  refine ⟨x, y, ?_, e2, ts x hx, texts_short T ds hs y hy, e3⟩
  unfold itemFinder
  have hdep := path_depth d ps ds.length i g2
  rw [andThen_run, hr, if_pos ⟨⟨h1, h2⟩, h3, by show ps.length ≤ n; omega⟩, andThen_run, andThen_run]
  show findPair _ _ = _
  rw [(climbP_run T hrun d hd ps g1 ds.length i).2, (rootP_run T hrun ds hs).2, e1]

/-! ## Concrete cases -/

/-- The tree of three items `1, 2, 3`: hash 1 and 2 together, then with 3. -/
theorem root_three (h : Bytes → Option Bytes) (a b c : Bytes) :
    root h [a, b, c] = (h (0 :: a)).bind fun x => (h (0 :: b)).bind fun y => (h (1 :: (x ++ y))).bind fun l => (h (0 :: c)).bind fun z => h (1 :: (l ++ z)) := by
  have s3 : split 3 = 2 := by decide
  have s2 : split 2 = 1 := by decide
  rw [root_node (by simp)]
  simp only [List.length_cons, List.length_nil, Nat.zero_add, Nat.reduceAdd, s3, List.take_succ_cons, List.take_zero, List.drop_succ_cons, List.drop_zero, root_one]
  rw [root_node (by simp)]
  simp only [List.length_cons, List.length_nil, Nat.zero_add, Nat.reduceAdd, s2, List.take_succ_cons, List.take_zero, List.drop_succ_cons, List.drop_zero, root_one, Option.bind_assoc]

/-- Item 2 of three items has a proof that SHA-256 accepts. -/
example : ∃ r ps, root (Model.Sha2.wrapper Variant.sha256.code .debug) [[1], [2, 2], [3]] = some r ∧
    path (Model.Sha2.wrapper Variant.sha256.code .debug) 2 [[1], [2, 2], [3]] = some ps ∧ check (Model.Sha2.wrapper Variant.sha256.code .debug) 3 2 [3] ps r = some true :=
  C155_complete .sha256 .debug [[1], [2, 2], [3]] (by intro d hd; simp at hd; rcases hd with rfl | rfl | rfl <;> simp) 2 [3] rfl

/-- What an accepted proof excludes: a proof that a wrong item is item 2 shows a collision of SHA-512. -/
example (ps : List Bytes) (r : Bytes) (hr : root (Model.Sha2.wrapper Variant.sha512.code .release) [[1], [2], [3]] = some r)
    (hc : check (Model.Sha2.wrapper Variant.sha512.code .release) 3 2 [4] ps r = some true) :
    Collide (Model.Sha2.wrapper Variant.sha512.code .release) (climbTexts (Model.Sha2.wrapper Variant.sha512.code .release) 3 2 [4] ps)
      (Spec.Merkle.texts (Model.Sha2.wrapper Variant.sha512.code .release) [[1], [2], [3]]) :=
  C155_one_item .sha512 .release [[1], [2], [3]] (by intro d hd; simp at hd; rcases hd with rfl | rfl | rfl <;> simp) 2 [4] (by simp) ps r hr hc (by simp)

/-- With SHA-256, `2^20` items of up to `2^10` bytes and an attacker who computes `2^60` compressions: a chance of at most `2^-134`. -/
example (X : Prober Variant.sha256.width (List Bytes × List Bytes)) (hX : X.Within Variant.sha256.block (2 ^ 60)) :
    prob (fun F : Fn Variant.sha256.width Variant.sha256.block => ∃ ds ds', X.run (fn F) = (ds, ds') ∧ ds ≠ ds' ∧ ds.length ≤ 2 ^ 20 ∧ ds'.length ≤ 2 ^ 20 ∧
      (∀ d ∈ ds, d.length ≤ 2 ^ 10) ∧ (∀ d ∈ ds', d.length ≤ 2 ^ 10) ∧
      root (Model.Sha2.wrapper (Variant.sha256.codeWith (fn F)) .debug) ds = root (Model.Sha2.wrapper (Variant.sha256.codeWith (fn F)) .debug) ds') ≤ 1 / 2 ^ 134 := by
  refine le_trans (C155_random_list .sha256 .debug (2 ^ 20) (2 ^ 10) (by decide) X (2 ^ 60) hX) ?_
  have e : treeCost .sha256 (2 ^ 60) (2 ^ 20) (2 ^ 10) = 2 ^ 60 + (4 * 2 ^ 20 + 4) * 18 := by decide +kernel
  rw [e, show Variant.sha256.size = 32 from rfl]
  norm_num

end CryptoPure.Props.Merkle
