import Verif.Spec.Merkle
import Mathlib.Tactic.ByContra

/-! # Hash trees: two lists with one root, and a proof for a wrong item, contain a collision -/

namespace CryptoPure.Proofs.Merkle
open CryptoPure.Spec.Merkle

/-- `h` returns `s` bytes for texts of at most `B` bytes, and two hashes fit into such a text. -/
structure Total (h : Bytes → Option Bytes) (B s : Nat) : Prop where
  ok : ∀ x, x.length ≤ B → ∃ y, h x = some y ∧ y.length = s
  room : 2 * s + 1 ≤ B

variable {h : Bytes → Option Bytes} {B s : Nat}

theorem tree_ind {P : List Bytes → Prop} (h0 : P []) (h1 : ∀ d, P [d])
    (h2 : ∀ ds : List Bytes, 2 ≤ ds.length → P (ds.take (split ds.length)) → P (ds.drop (split ds.length)) → P ds) (ds : List Bytes) : P ds := by
  obtain ⟨n, hn⟩ : ∃ n, n = ds.length := ⟨_, rfl⟩
  induction n using Nat.strongRecOn generalizing ds with
  | ind n ih =>
    by_cases hl : 2 ≤ ds.length
    · have a := split_lt hl
      have b := split_pos ds.length
      exact h2 ds hl (ih (ds.take (split ds.length)).length (by rw [List.length_take]; omega) _ rfl)
        (ih (ds.drop (split ds.length)).length (by rw [List.length_drop]; omega) _ rfl)
    · match ds with
      | [] => exact h0
      | [d] => exact h1 d
      | _ :: _ :: _ => simp at hl

theorem root_nil : root h [] = h [] := by rw [root]; simp
theorem root_one (d : Bytes) : root h [d] = h (0 :: d) := by rw [root]; simp
theorem root_node {ds : List Bytes} (hl : 2 ≤ ds.length) :
    root h ds = (root h (ds.take (split ds.length))).bind fun l => (root h (ds.drop (split ds.length))).bind fun r => h (1 :: (l ++ r)) := by
  rw [root.eq_def, if_pos hl]; rfl

theorem texts_nil : texts h [] = [[]] := by rw [texts]; simp
theorem texts_one (d : Bytes) : texts h [d] = [0 :: d] := by rw [texts]; simp
theorem texts_node {ds : List Bytes} (hl : 2 ≤ ds.length) {l r : Bytes} (h1 : root h (ds.take (split ds.length)) = some l) (h2 : root h (ds.drop (split ds.length)) = some r) :
    texts h ds = texts h (ds.take (split ds.length)) ++ texts h (ds.drop (split ds.length)) ++ [1 :: (l ++ r)] := by
  rw [texts.eq_def, if_pos hl, h1, h2]; rfl

/-- All items are short enough to be hashed. -/
def Short (B : Nat) (ds : List Bytes) : Prop := ∀ d ∈ ds, d.length < B

theorem Short.take {ds : List Bytes} (hs : Short B ds) (k : Nat) : Short B (ds.take k) := fun d hd => hs d (List.mem_of_mem_take hd)
theorem Short.drop {ds : List Bytes} (hs : Short B ds) (k : Nat) : Short B (ds.drop k) := fun d hd => hs d (List.mem_of_mem_drop hd)

theorem node_short (T : Total h B s) {l r : Bytes} (hl : l.length = s) (hr : r.length = s) : (1 :: (l ++ r) : Bytes).length ≤ B := by
  have := T.room
  simp only [List.length_cons, List.length_append]
  omega

theorem root_total (T : Total h B s) (ds : List Bytes) (hs : Short B ds) : ∃ r, root h ds = some r ∧ r.length = s := by
  induction ds using tree_ind with
  | h0 => rw [root_nil]; exact T.ok _ (by simp)
  | h1 d => rw [root_one]; exact T.ok _ (by have := hs d (by simp); simp only [List.length_cons]; omega)
  | h2 ds hl ih1 ih2 =>
    obtain ⟨l, e1, l1⟩ := ih1 (hs.take _)
    obtain ⟨r, e2, l2⟩ := ih2 (hs.drop _)
    rw [root_node hl, e1, e2]
    exact T.ok _ (node_short T l1 l2)

/-- The hash of a tree with at least two items. -/
theorem root_parts (T : Total h B s) {ds : List Bytes} (hs : Short B ds) (hl : 2 ≤ ds.length) {r : Bytes} (hr : root h ds = some r) :
    ∃ a b, root h (ds.take (split ds.length)) = some a ∧ root h (ds.drop (split ds.length)) = some b ∧ a.length = s ∧ b.length = s ∧ h (1 :: (a ++ b)) = some r ∧
      texts h ds = texts h (ds.take (split ds.length)) ++ texts h (ds.drop (split ds.length)) ++ [1 :: (a ++ b)] := by
  obtain ⟨a, e1, l1⟩ := root_total T _ (hs.take (split ds.length))
  obtain ⟨b, e2, l2⟩ := root_total T _ (hs.drop (split ds.length))
  rw [root_node hl, e1, e2] at hr
  exact ⟨a, b, e1, e2, l1, l2, hr, texts_node hl e1 e2⟩

theorem Collide.mono {xs ys xs' ys' : List Bytes} (hc : Collide h xs ys) (h1 : ∀ x ∈ xs, x ∈ xs') (h2 : ∀ y ∈ ys, y ∈ ys') : Collide h xs' ys' := by
  obtain ⟨x, hx, y, hy, c⟩ := hc
  exact ⟨x, h1 x hx, y, h2 y hy, c⟩

/-- The last text of `texts` is the one that gives the root. -/
theorem top (T : Total h B s) (ds : List Bytes) (hs : Short B ds) {r : Bytes} (hr : root h ds = some r) :
    ∃ x ∈ texts h ds, h x = some r ∧ ((ds = [] ∧ x = []) ∨ (∃ d, ds = [d] ∧ x = 0 :: d) ∨ (2 ≤ ds.length ∧ ∃ y, x = 1 :: y)) := by
  match ds with
  | [] => exact ⟨[], by rw [texts_nil]; simp, by rw [root_nil] at hr; exact hr, Or.inl ⟨rfl, rfl⟩⟩
  | [d] => exact ⟨0 :: d, by rw [texts_one]; simp, by rw [root_one] at hr; exact hr, Or.inr (Or.inl ⟨d, rfl, rfl⟩)⟩
  | a :: b :: ds =>
    obtain ⟨x, y, -, -, -, -, e, e'⟩ := root_parts T hs (by simp) hr
    exact ⟨_, by rw [e']; simp, e, Or.inr (Or.inr ⟨by simp, _, rfl⟩)⟩

theorem binding (T : Total h B s) (ds : List Bytes) (hs : Short B ds) (ds' : List Bytes) (hs' : Short B ds') {r : Bytes} (hr : root h ds = some r)
    (hr' : root h ds' = some r) (hne : ds ≠ ds') : Collide h (texts h ds) (texts h ds') := by
  induction ds using tree_ind generalizing ds' r with
  | h0 =>
    obtain ⟨x, hx, e, c⟩ := top T _ hs hr
    obtain ⟨x', hx', e', c'⟩ := top T _ hs' hr'
    refine ⟨x, hx, x', hx', ?_, by rw [e]; rfl, by rw [e, e']⟩
    rcases c with ⟨-, rfl⟩ | ⟨d, h, -⟩ | ⟨h, -⟩
    · rcases c' with ⟨h, rfl⟩ | ⟨d, -, rfl⟩ | ⟨-, y, rfl⟩
      · exact absurd h.symm hne
      · simp
      · simp
    · cases h
    · simp at h
  | h1 d =>
    obtain ⟨x, hx, e, c⟩ := top T _ hs hr
    obtain ⟨x', hx', e', c'⟩ := top T _ hs' hr'
    refine ⟨x, hx, x', hx', ?_, by rw [e]; rfl, by rw [e, e']⟩
    rcases c with ⟨h, -⟩ | ⟨d0, h, rfl⟩ | ⟨h, -⟩
    · cases h
    · cases h
      rcases c' with ⟨h, rfl⟩ | ⟨d1, rfl, rfl⟩ | ⟨-, y, rfl⟩
      · simp
      · intro e; cases e; exact hne rfl
      · intro e; cases e
    · simp at h
  | h2 ds hl ih1 ih2 =>
    obtain ⟨a, b, a1, b1, la, lb, e, et⟩ := root_parts T hs hl hr
    obtain ⟨x', hx', e', c'⟩ := top T _ hs' hr'
    by_cases hx : (1 :: (a ++ b) : Bytes) = x'
    · rcases c' with ⟨-, rfl⟩ | ⟨d, -, rfl⟩ | ⟨hl', y, -⟩
      · cases hx
      · cases hx
      obtain ⟨a', b', a1', b1', la', lb', e'', et'⟩ := root_parts T hs' hl' hr'
      by_cases hy : (1 :: (a ++ b) : Bytes) = 1 :: (a' ++ b')
      · have hy' := (List.cons.inj hy).2
        obtain ⟨rfl, rfl⟩ := List.append_inj hy' (la.trans la'.symm)
        by_cases ht : ds.take (split ds.length) = ds'.take (split ds'.length)
        · by_cases hd : ds.drop (split ds.length) = ds'.drop (split ds'.length)
          · exact absurd (by rw [← List.take_append_drop (split ds.length) ds, ht, hd, List.take_append_drop]) hne
          · refine Collide.mono (ih2 (hs.drop _) _ (hs'.drop _) b1 b1' hd) ?_ ?_ <;> intro x hx
            · rw [et]; simp [hx]
            · rw [et']; simp [hx]
        · refine Collide.mono (ih1 (hs.take _) _ (hs'.take _) a1 a1' ht) ?_ ?_ <;> intro x hx
          · rw [et]; simp [hx]
          · rw [et']; simp [hx]
      · exact ⟨_, by rw [et]; simp, _, by rw [et']; simp, hy, by rw [e]; rfl, by rw [e, e'']⟩
    · exact ⟨_, by rw [et]; simp, x', hx', hx, by rw [e]; rfl, by rw [e, e']⟩

/-! ## Proofs that an item is in the tree -/

theorem climb_total (T : Total h B s) (d : Bytes) (hd : d.length < B) (ps : List Bytes) (hp : ∀ p ∈ ps, p.length = s) (n i : Nat) :
    ∃ o, climb h n i d ps = some o ∧ ∀ l, o = some l → l.length = s := by
  induction ps generalizing n i with
  | nil =>
    rw [climb]
    split
    · obtain ⟨y, e, l⟩ := T.ok (0 :: d) (by simp only [List.length_cons]; omega)
      rw [e]
      exact ⟨_, rfl, fun l' h' => by cases h'; exact l⟩
    · exact ⟨none, rfl, fun _ h' => by cases h'⟩
  | cons p ps ih =>
    have hp' : ∀ q ∈ ps, q.length = s := fun q hq => hp q (List.mem_cons_of_mem _ hq)
    have lp := hp p (by simp)
    rw [climb]
    split
    · exact ⟨none, rfl, fun _ h' => by cases h'⟩
    split
    · obtain ⟨o, e, l⟩ := ih hp' (split n) i
      rw [e]
      cases o with
      | none => exact ⟨none, rfl, fun _ h' => by cases h'⟩
      | some x =>
        obtain ⟨y, ey, ly⟩ := T.ok _ (node_short T (l x rfl) lp)
        simp only [Option.bind_eq_bind, Option.bind_some, ey, Option.map_some]
        exact ⟨_, rfl, fun l' h' => by cases h'; exact ly⟩
    · obtain ⟨o, e, l⟩ := ih hp' (n - split n) (i - split n)
      rw [e]
      cases o with
      | none => exact ⟨none, rfl, fun _ h' => by cases h'⟩
      | some x =>
        obtain ⟨y, ey, ly⟩ := T.ok _ (node_short T lp (l x rfl))
        simp only [Option.bind_eq_bind, Option.bind_some, ey, Option.map_some]
        exact ⟨_, rfl, fun l' h' => by cases h'; exact ly⟩

theorem climb_left (T : Total h B s) {d : Bytes} (hd : d.length < B) {p : Bytes} {ps : List Bytes} (hp : ∀ q ∈ p :: ps, q.length = s) {n i : Nat} {r : Bytes}
    (hi : i < split n) (e : climb h n i d (p :: ps) = some (some r)) :
    2 ≤ n ∧ ∃ l, climb h (split n) i d ps = some (some l) ∧ l.length = s ∧ h (1 :: (l ++ p)) = some r ∧
      climbTexts h n i d (p :: ps) = climbTexts h (split n) i d ps ++ [1 :: (l ++ p)] := by
  obtain ⟨o, eo, lo⟩ := climb_total T d hd ps (fun q hq => hp q (List.mem_cons_of_mem _ hq)) (split n) i
  rw [climb] at e
  by_cases hn : n < 2
  · rw [if_pos hn] at e; cases e
  rw [if_neg hn, if_pos hi, eo] at e
  cases o with
  | none => cases e
  | some l =>
    obtain ⟨y, ey, -⟩ := T.ok _ (node_short T (lo l rfl) (hp p (by simp)))
    simp only [Option.bind_eq_bind, Option.bind_some, ey, Option.map_some, Option.some.injEq] at e
    refine ⟨by omega, l, eo, lo l rfl, by rw [ey, e], ?_⟩
    rw [climbTexts, if_neg hn, if_pos hi, eo]

theorem climb_right (T : Total h B s) {d : Bytes} (hd : d.length < B) {p : Bytes} {ps : List Bytes} (hp : ∀ q ∈ p :: ps, q.length = s) {n i : Nat} {r : Bytes}
    (hi : ¬ i < split n) (e : climb h n i d (p :: ps) = some (some r)) :
    2 ≤ n ∧ ∃ l, climb h (n - split n) (i - split n) d ps = some (some l) ∧ l.length = s ∧ h (1 :: (p ++ l)) = some r ∧
      climbTexts h n i d (p :: ps) = climbTexts h (n - split n) (i - split n) d ps ++ [1 :: (p ++ l)] := by
  obtain ⟨o, eo, lo⟩ := climb_total T d hd ps (fun q hq => hp q (List.mem_cons_of_mem _ hq)) (n - split n) (i - split n)
  rw [climb] at e
  by_cases hn : n < 2
  · rw [if_pos hn] at e; cases e
  rw [if_neg hn, if_neg hi, eo] at e
  cases o with
  | none => cases e
  | some l =>
    obtain ⟨y, ey, -⟩ := T.ok _ (node_short T (hp p (by simp)) (lo l rfl))
    simp only [Option.bind_eq_bind, Option.bind_some, ey, Option.map_some, Option.some.injEq] at e
    refine ⟨by omega, l, eo, lo l rfl, by rw [ey, e], ?_⟩
    rw [climbTexts, if_neg hn, if_neg hi, eo]

theorem inclusion (T : Total h B s) (ds : List Bytes) (hs : Short B ds) (d : Bytes) (hd : d.length < B) (ps : List Bytes) (hp : ∀ p ∈ ps, p.length = s) (i : Nat) {r : Bytes}
    (hr : root h ds = some r) (hc : climb h ds.length i d ps = some (some r)) : ds[i]? = some d ∨ Collide h (climbTexts h ds.length i d ps) (texts h ds) := by
  induction ds using tree_ind generalizing ps i r with
  | h0 =>
    cases ps with
    | nil => rw [climb, if_neg (by simp)] at hc; cases hc
    | cons p ps => rw [climb, if_pos (by simp)] at hc; cases hc
  | h1 d0 =>
    cases ps with
    | nil =>
      rw [climb] at hc
      by_cases hi : i = 0
      · subst hi
        rw [if_pos (by simp)] at hc
        rw [root_one] at hr
        by_cases e : d0 = d
        · left; simp [e]
        · right
          refine ⟨0 :: d, by rw [climbTexts, if_pos (by simp)]; simp, 0 :: d0, by rw [texts_one]; simp, ?_, ?_, ?_⟩
          · intro e'; exact e (List.cons.inj e').2.symm
          · cases e1 : h (0 :: d) with
            | none => rw [e1] at hc; cases hc
            | some y => rfl
          · cases e1 : h (0 :: d) with
            | none => rw [e1] at hc; cases hc
            | some y => rw [e1] at hc; cases hc; rw [hr]
      · rw [if_neg (by simp [hi])] at hc; cases hc
    | cons p ps => rw [climb, if_pos (by simp)] at hc; cases hc
  | h2 ds hl ih1 ih2 =>
    cases ps with
    | nil => rw [climb, if_neg (by omega)] at hc; cases hc
    | cons p ps =>
      obtain ⟨a, b, a1, b1, la, lb, e, et⟩ := root_parts T hs hl hr
      have hk := split_lt hl
      have lt : (ds.take (split ds.length)).length = split ds.length := by rw [List.length_take]; omega
      have ld : (ds.drop (split ds.length)).length = ds.length - split ds.length := List.length_drop
      have hp' : ∀ q ∈ ps, q.length = s := fun q hq => hp q (List.mem_cons_of_mem _ hq)
      by_cases hi : i < split ds.length
      · obtain ⟨-, l, el, ll, eh, ec⟩ := climb_left T hd hp hi hc
        by_cases hx : (1 :: (l ++ p) : Bytes) = 1 :: (a ++ b)
        · obtain ⟨rfl, rfl⟩ := List.append_inj (List.cons.inj hx).2 (ll.trans la.symm)
          rcases ih1 (hs.take _) ps hp' i a1 (by rw [lt]; exact el) with h1 | h1
          · left
            rw [List.getElem?_take_of_lt hi] at h1
            exact h1
          · right
            rw [lt] at h1
            refine Collide.mono h1 ?_ ?_ <;> intro x hx
            · rw [ec]; simp [hx]
            · rw [et]; simp [hx]
        · exact Or.inr ⟨_, by rw [ec]; simp, _, by rw [et]; simp, hx, by rw [eh]; rfl, by rw [eh, e]⟩
      · obtain ⟨-, l, el, ll, eh, ec⟩ := climb_right T hd hp hi hc
        by_cases hx : (1 :: (p ++ l) : Bytes) = 1 :: (a ++ b)
        · obtain ⟨rfl, rfl⟩ := List.append_inj (List.cons.inj hx).2 ((hp p (by simp)).trans la.symm)
          rcases ih2 (hs.drop _) ps hp' (i - split ds.length) b1 (by rw [ld]; exact el) with h1 | h1
          · left
            rw [List.getElem?_drop, Nat.add_sub_cancel' (by omega)] at h1
            exact h1
          · right
            rw [ld] at h1
            refine Collide.mono h1 ?_ ?_ <;> intro x hx
            · rw [ec]; simp [hx]
            · rw [et]; simp [hx]
        · exact Or.inr ⟨_, by rw [ec]; simp, _, by rw [et]; simp, hx, by rw [eh]; rfl, by rw [eh, e]⟩

theorem complete (T : Total h B s) (ds : List Bytes) (hs : Short B ds) (i : Nat) (d : Bytes) (hi : ds[i]? = some d) :
    ∃ r ps, root h ds = some r ∧ path h i ds = some ps ∧ r.length = s ∧ (∀ p ∈ ps, p.length = s) ∧ climb h ds.length i d ps = some (some r) := by
  induction ds using tree_ind generalizing i with
  | h0 => simp at hi
  | h1 d0 =>
    obtain ⟨r, e, l⟩ := root_total T _ hs
    have h0 : i = 0 := by
      by_contra hne
      rw [List.getElem?_eq_none (by simp; omega)] at hi
      cases hi
    subst h0
    simp only [List.getElem?_cons_zero, Option.some.injEq] at hi
    subst hi
    refine ⟨r, [], e, by rw [path.eq_def, if_neg (by simp)], l, by simp, ?_⟩
    rw [climb, if_pos (by simp), ← root_one (h := h), e]
    rfl
  | h2 ds hl ih1 ih2 =>
    obtain ⟨r, hr, l⟩ := root_total T _ hs
    obtain ⟨a, b, a1, b1, la, lb, e, et⟩ := root_parts T hs hl hr
    have hk := split_lt hl
    have lt : (ds.take (split ds.length)).length = split ds.length := by rw [List.length_take]; omega
    have ld : (ds.drop (split ds.length)).length = ds.length - split ds.length := List.length_drop
    by_cases hik : i < split ds.length
    · obtain ⟨r', ps, e1, e2, -, e4, e5⟩ := ih1 (hs.take _) i (by rw [List.getElem?_take_of_lt hik]; exact hi)
      obtain rfl : r' = a := Option.some.inj (e1.symm.trans a1)
      refine ⟨r, b :: ps, hr, ?_, l, ?_, ?_⟩
      · rw [path.eq_def, if_pos hl, if_pos hik, b1, e2]; rfl
      · intro p hp
        rcases List.mem_cons.mp hp with rfl | hp
        · exact lb
        · exact e4 p hp
      · rw [lt] at e5
        rw [climb, if_neg (by omega), if_pos hik, e5]
        simp only [Option.bind_eq_bind, Option.bind_some, e, Option.map_some]
    · obtain ⟨r', ps, e1, e2, -, e4, e5⟩ := ih2 (hs.drop _) (i - split ds.length) (by rw [List.getElem?_drop, Nat.add_sub_cancel' (by omega)]; exact hi)
      obtain rfl : r' = b := Option.some.inj (e1.symm.trans b1)
      refine ⟨r, a :: ps, hr, ?_, l, ?_, ?_⟩
      · rw [path.eq_def, if_pos hl, if_neg hik, a1, e2]; rfl
      · intro p hp
        rcases List.mem_cons.mp hp with rfl | hp
        · exact la
        · exact e4 p hp
      · rw [ld] at e5
        rw [climb, if_neg (by omega), if_neg hik, e5]
        simp only [Option.bind_eq_bind, Option.bind_some, e, Option.map_some]

theorem path_depth (d : Bytes) (ps : List Bytes) (n i : Nat) {r : Bytes} (e : climb h n i d ps = some (some r)) : ps.length < n := by
  induction ps generalizing n i r with
  | nil =>
    rw [climb] at e
    split at e
    · simp; omega
    · cases e
  | cons p ps ih =>
    rw [climb] at e
    split at e
    · cases e
    rename_i hn
    have h1 := split_pos n
    have h2 := split_lt (n := n) (by omega)
    split at e
    · cases ec : climb h (split n) i d ps with
      | none => rw [ec] at e; cases e
      | some o =>
        cases o with
        | none => rw [ec] at e; cases e
        | some l => have := ih _ _ ec; simp only [List.length_cons]; omega
    · cases ec : climb h (n - split n) (i - split n) d ps with
      | none => rw [ec] at e; cases e
      | some o =>
        cases o with
        | none => rw [ec] at e; cases e
        | some l => have := ih _ _ ec; simp only [List.length_cons]; omega

end CryptoPure.Proofs.Merkle
