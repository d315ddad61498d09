import Verif.Spec.MerkleLog
import Verif.Proofs.Merkle
import Mathlib.Tactic.Tauto

/-! # Logs: an accepted proof for lists of which one is not the beginning of the other contains a collision -/

namespace CryptoPure.Proofs.Merkle
open CryptoPure.Spec.Merkle

variable {h : Bytes → Option Bytes} {B s : Nat}

theorem split_eq {m n : Nat} (h1 : split n < m) (h2 : m ≤ n) : split m = split n := by
  unfold split at h1 ⊢
  have hp := Nat.two_pow_pos (Nat.log2 (n - 1))
  have : (m - 1).log2 = (n - 1).log2 := by
    rw [Nat.log2_eq_iff (by omega)]
    have := Nat.lt_log2_self (n := n - 1)
    omega
  rw [this]

theorem Short.take_drop {ds : List Bytes} (hs : Short B ds) (j k : Nat) : Short B ((ds.drop j).take k) := (hs.drop j).take k

theorem grow_total (T : Total h B s) (old : Bytes) (ho : old.length = s) (ps : List Bytes) (hp : ∀ p ∈ ps, p.length = s) (m n : Nat) (known : Bool) :
    ∃ r, grow h m n known old ps = some r ∧ ∀ o w, r = some (o, w) → o.length = s ∧ w.length = s := by
  induction ps generalizing m n known with
  | nil =>
    rw [grow]
    refine ⟨_, rfl, fun o w e => ?_⟩
    split at e
    · cases e; exact ⟨ho, ho⟩
    · cases e
  | cons p ps ih =>
    have hp' : ∀ q ∈ ps, q.length = s := fun q hq => hp q (List.mem_cons_of_mem _ hq)
    have lp := hp p (by simp)
    rw [grow]
    split
    · refine ⟨_, rfl, fun o w e => ?_⟩
      split at e
      · cases e; exact ⟨lp, lp⟩
      · cases e
    split
    · obtain ⟨r, e, l⟩ := ih hp' m (split n) known
      rw [e]
      rcases r with _ | ⟨o, w⟩
      · exact ⟨none, rfl, fun _ _ e => by cases e⟩
      · obtain ⟨l1, l2⟩ := l o w rfl
        obtain ⟨y, ey, ly⟩ := T.ok _ (node_short T l2 lp)
        simp only [Option.bind_eq_bind, Option.bind_some, ey]
        exact ⟨_, rfl, fun _ _ e => by cases e; exact ⟨l1, ly⟩⟩
    · obtain ⟨r, e, l⟩ := ih hp' (m - split n) (n - split n) false
      rw [e]
      rcases r with _ | ⟨o, w⟩
      · exact ⟨none, rfl, fun _ _ e => by cases e⟩
      · obtain ⟨l1, l2⟩ := l o w rfl
        obtain ⟨y, ey, ly⟩ := T.ok _ (node_short T lp l1)
        obtain ⟨z, ez, lz⟩ := T.ok _ (node_short T lp l2)
        simp only [Option.bind_eq_bind, Option.bind_some, ey, ez]
        exact ⟨_, rfl, fun _ _ e => by cases e; exact ⟨ly, lz⟩⟩

theorem grow_same {old o w : Bytes} {ps : List Bytes} {n : Nat} {known : Bool} (e : grow h n n known old ps = some (some (o, w))) : o = w := by
  cases ps with
  | nil =>
    rw [grow] at e
    split at e
    · cases e; rfl
    · cases e
  | cons p ps =>
    rw [grow, if_pos rfl] at e
    split at e
    · cases e; rfl
    · cases e

theorem grow_left {old o w p : Bytes} {ps : List Bytes} {m n : Nat} {known : Bool} (hm : m ≠ n) (hk : m ≤ split n) (e : grow h m n known old (p :: ps) = some (some (o, w))) :
    ∃ w', grow h m (split n) known old ps = some (some (o, w')) ∧ h (1 :: (w' ++ p)) = some w ∧
      growTexts h m n known old (p :: ps) = growTexts h m (split n) known old ps ++ [1 :: (w' ++ p)] := by
  rw [grow, if_neg hm, if_pos hk] at e
  rw [growTexts, if_neg hm, if_pos hk]
  cases e1 : grow h m (split n) known old ps with
  | none => rw [e1] at e; cases e
  | some r =>
    rw [e1] at e
    rcases r with _ | ⟨o', w'⟩
    · cases e
    · simp only [Option.bind_eq_bind, Option.bind_some] at e
      cases e2 : h (1 :: (w' ++ p)) with
      | none => rw [e2] at e; cases e
      | some y =>
        rw [e2] at e
        cases e
        exact ⟨w', rfl, e2, rfl⟩

theorem grow_right {old o w p : Bytes} {ps : List Bytes} {m n : Nat} {known : Bool} (hm : m ≠ n) (hk : ¬ m ≤ split n) (e : grow h m n known old (p :: ps) = some (some (o, w))) :
    ∃ o' w', grow h (m - split n) (n - split n) false old ps = some (some (o', w')) ∧ h (1 :: (p ++ o')) = some o ∧ h (1 :: (p ++ w')) = some w ∧
      growTexts h m n known old (p :: ps) = growTexts h (m - split n) (n - split n) false old ps ++ [1 :: (p ++ o'), 1 :: (p ++ w')] := by
  rw [grow, if_neg hm, if_neg hk] at e
  rw [growTexts, if_neg hm, if_neg hk]
  cases e1 : grow h (m - split n) (n - split n) false old ps with
  | none => rw [e1] at e; cases e
  | some r =>
    rw [e1] at e
    rcases r with _ | ⟨o', w'⟩
    · cases e
    · simp only [Option.bind_eq_bind, Option.bind_some] at e
      cases e2 : h (1 :: (p ++ o')) with
      | none => rw [e2] at e; cases e
      | some y =>
        rw [e2] at e
        cases e3 : h (1 :: (p ++ w')) with
        | none => rw [e3] at e; cases e
        | some z =>
          rw [e3] at e
          cases e
          exact ⟨o', w', rfl, e2, e3, rfl⟩

/-- All texts that are hashed for two lists and a proof. -/
def logTexts (h : Bytes → Option Bytes) (ds ds' : List Bytes) (known : Bool) (old : Bytes) (ps : List Bytes) : List Bytes :=
  Spec.Merkle.texts h ds ++ Spec.Merkle.texts h ds' ++ growTexts h ds.length ds'.length known old ps

theorem Collide.self {xs : List Bytes} {x y z : Bytes} (hx : x ∈ xs) (hy : y ∈ xs) (hne : x ≠ y) (ex : h x = some z) (ey : h y = some z) : Collide h xs xs :=
  ⟨x, hx, y, hy, hne, by rw [ex]; rfl, by rw [ex, ey]⟩

theorem growth_sound_same (T : Total h B s) (ds' : List Bytes) (hs' : Short B ds') (ds : List Bytes) (hs : Short B ds) (known : Bool) (old : Bytes) (ps : List Bytes) {o w : Bytes}
    (hr : root h ds = some o) (hr' : root h ds' = some w) (hc : grow h ds.length ds'.length known old ps = some (some (o, w))) (e : ds.length = ds'.length) :
    ds = ds'.take ds.length ∨ Collide h (logTexts h ds ds' known old ps) (logTexts h ds ds' known old ps) := by
  rw [e] at hc
  obtain rfl := grow_same hc
  by_cases he : ds = ds'
  · left; rw [e, List.take_length, he]
  · right
    refine Collide.mono (binding T ds hs ds' hs' hr hr' he) ?_ ?_ <;> intro x hx <;> unfold logTexts <;> simp [hx]

theorem growth_sound (T : Total h B s) (ds' : List Bytes) (hs' : Short B ds') (ds : List Bytes) (hs : Short B ds) (hm : 0 < ds.length) (hmn : ds.length ≤ ds'.length) (known : Bool)
    (old : Bytes) (ho : old.length = s) (ps : List Bytes) (hp : ∀ p ∈ ps, p.length = s) {o w : Bytes} (hr : root h ds = some o) (hr' : root h ds' = some w)
    (hc : grow h ds.length ds'.length known old ps = some (some (o, w))) :
    ds = ds'.take ds.length ∨ Collide h (logTexts h ds ds' known old ps) (logTexts h ds ds' known old ps) := by
  induction ds' using tree_ind generalizing ds known ps o w with
  | h0 => simp only [List.length_nil] at hmn; omega
  | h1 d => exact growth_sound_same T _ hs' ds hs known old ps hr hr' hc (by simp only [List.length_cons, List.length_nil] at hmn ⊢; omega)
  | h2 ds' hl ih1 ih2 =>
    by_cases hne : ds.length = ds'.length
    · exact growth_sound_same T _ hs' ds hs known old ps hr hr' hc hne
    obtain ⟨a, b, a1, b1, la, lb, e, et⟩ := root_parts T hs' hl hr'
    have hk := split_lt hl
    have hk0 := split_pos ds'.length
    have lt : (ds'.take (split ds'.length)).length = split ds'.length := by rw [List.length_take]; omega
    have ld : (ds'.drop (split ds'.length)).length = ds'.length - split ds'.length := List.length_drop
    cases ps with
    | nil => rw [grow, if_neg (by simp [hne])] at hc; cases hc
    | cons p ps =>
      have hp' : ∀ q ∈ ps, q.length = s := fun q hq => hp q (List.mem_cons_of_mem _ hq)
      have lp := hp p (by simp)
      by_cases hik : ds.length ≤ split ds'.length
      · obtain ⟨w', eg, eh, eT⟩ := grow_left hne hik hc
        obtain ⟨r, er, lr⟩ := grow_total T old ho ps hp' ds.length (split ds'.length) known
        rw [eg, Option.some.injEq] at er
        obtain ⟨-, lw⟩ := lr o w' er.symm
        by_cases hx : (1 :: (w' ++ p) : Bytes) = 1 :: (a ++ b)
        · obtain ⟨rfl, rfl⟩ := List.append_inj (List.cons.inj hx).2 (lw.trans la.symm)
          have := ih1 (hs'.take _) ds hs hm (by rw [lt]; exact hik) known ps hp' hr a1 (by rw [lt]; exact eg)
          rcases this with h1 | h1
          · left
            rw [List.take_take, Nat.min_eq_left hik] at h1
            exact h1
          · right
            unfold logTexts at h1 ⊢
            rw [lt] at h1
            refine Collide.mono h1 ?_ ?_ <;> intro x hx <;> rw [et, eT] <;> simp only [List.mem_append] at hx ⊢ <;> tauto
        · right
          refine Collide.self (x := 1 :: (w' ++ p)) (y := 1 :: (a ++ b)) ?_ ?_ hx eh e <;> unfold logTexts <;> rw [et, eT] <;> simp
      · obtain ⟨o', w', eg, eo, ew, eT⟩ := grow_right hne hik hc
        obtain ⟨r, er, lr⟩ := grow_total T old ho ps hp' (ds.length - split ds'.length) (ds'.length - split ds'.length) false
        rw [eg, Option.some.injEq] at er
        obtain ⟨lo, lw⟩ := lr o' w' er.symm
        have hsp : split ds.length = split ds'.length := split_eq (by omega) hmn
        obtain ⟨c, d, c1, d1, lc, ldd, e', et'⟩ := root_parts T hs (by omega) hr
        rw [hsp] at c1 d1 et'
        have ld1 : (ds.drop (split ds'.length)).length = ds.length - split ds'.length := List.length_drop
        by_cases hx : (1 :: (p ++ w') : Bytes) = 1 :: (a ++ b)
        · by_cases hy : (1 :: (p ++ o') : Bytes) = 1 :: (c ++ d)
          · obtain ⟨rfl, rfl⟩ := List.append_inj (List.cons.inj hx).2 (lp.trans la.symm)
            obtain ⟨rfl, rfl⟩ := List.append_inj (List.cons.inj hy).2 (lp.trans lc.symm)
            by_cases hT : ds.take (split ds'.length) = ds'.take (split ds'.length)
            · have := ih2 (hs'.drop _) (ds.drop (split ds'.length)) (hs.drop _) (by omega) (by omega) false ps hp' d1 b1 (by rw [ld, ld1]; exact eg)
              rcases this with h1 | h1
              · left
                rw [ld1] at h1
                calc ds = ds.take (split ds'.length) ++ ds.drop (split ds'.length) := (List.take_append_drop _ _).symm
                  _ = ds'.take (split ds'.length) ++ (ds'.drop (split ds'.length)).take (ds.length - split ds'.length) := by rw [hT, h1]
                  _ = ds'.take ds.length := by
                    rw [← List.take_add]
                    congr 1
                    omega
              · right
                unfold logTexts at h1 ⊢
                rw [ld, ld1] at h1
                refine Collide.mono h1 ?_ ?_ <;> intro x hx <;> rw [et, et', eT] <;> simp only [List.mem_append] at hx ⊢ <;> tauto
            · right
              refine Collide.mono (binding T _ (hs.take _) _ (hs'.take _) c1 a1 hT) ?_ ?_ <;> intro x hx <;> unfold logTexts <;> rw [et, et'] <;> simp [hx]
          · right
            refine Collide.self (x := 1 :: (p ++ o')) (y := 1 :: (c ++ d)) ?_ ?_ hy eo e' <;> unfold logTexts <;> rw [et', eT] <;> simp
        · right
          refine Collide.self (x := 1 :: (p ++ w')) (y := 1 :: (a ++ b)) ?_ ?_ hx ew e <;> unfold logTexts <;> rw [et, eT] <;> simp

theorem growth_complete_same (T : Total h B s) (ds : List Bytes) (hs : Short B ds) (m : Nat) (known : Bool) (e : m = ds.length) :
    ∃ ps o w, growth h m known ds = some ps ∧ root h (ds.take m) = some o ∧ root h ds = some w ∧ (∀ p ∈ ps, p.length = s) ∧ o.length = s ∧ w.length = s ∧
      ∀ old, (known → old = o) → grow h m ds.length known old ps = some (some (o, w)) := by
  obtain ⟨r, er, lr⟩ := root_total T ds hs
  rw [growth.eq_def, if_neg (by omega), e, List.take_length]
  cases known with
  | true =>
    refine ⟨[], r, r, rfl, er, er, by simp, lr, lr, fun old ho => ?_⟩
    rw [grow, if_pos ⟨rfl, rfl⟩, ho rfl]
  | false =>
    refine ⟨[r], r, r, by rw [er]; rfl, er, er, by simpa using lr, lr, lr, fun old ho => ?_⟩
    rw [grow, if_pos rfl, if_pos ⟨rfl, rfl⟩]

theorem growth_complete (T : Total h B s) (ds : List Bytes) (hs : Short B ds) (m : Nat) (hm : 0 < m) (hmn : m ≤ ds.length) (known : Bool) :
    ∃ ps o w, growth h m known ds = some ps ∧ root h (ds.take m) = some o ∧ root h ds = some w ∧ (∀ p ∈ ps, p.length = s) ∧ o.length = s ∧ w.length = s ∧
      ∀ old, (known → old = o) → grow h m ds.length known old ps = some (some (o, w)) := by
  induction ds using tree_ind generalizing m known with
  | h0 => simp only [List.length_nil] at hmn; omega
  | h1 d => exact growth_complete_same T _ hs m known (by simp only [List.length_cons, List.length_nil] at hmn ⊢; omega)
  | h2 ds hl ih1 ih2 =>
    by_cases hne : m = ds.length
    · exact growth_complete_same T _ hs m known hne
    obtain ⟨r, er, lr⟩ := root_total T ds hs
    obtain ⟨a, b, a1, b1, la, lb, e, -⟩ := root_parts T hs hl er
    have hk := split_lt hl
    have hk0 := split_pos ds.length
    have lt : (ds.take (split ds.length)).length = split ds.length := by rw [List.length_take]; omega
    have ld : (ds.drop (split ds.length)).length = ds.length - split ds.length := List.length_drop
    rw [growth.eq_def, if_pos ⟨hl, by omega⟩]
    by_cases hik : m ≤ split ds.length
    · obtain ⟨ps, o, w, g1, g2, g3, g4, g5, g6, g7⟩ := ih1 (hs.take _) m hm (by omega) known
      obtain rfl : w = a := Option.some.inj (g3.symm.trans a1)
      rw [if_pos hik, b1, g1]
      rw [List.take_take, Nat.min_eq_left hik] at g2
      refine ⟨b :: ps, o, r, rfl, g2, er, ?_, g5, lr, fun old ho => ?_⟩
      · intro p hp
        rcases List.mem_cons.mp hp with rfl | hp
        · exact lb
        · exact g4 p hp
      · have := g7 old ho
        rw [lt] at this
        rw [grow, if_neg hne, if_pos hik, this]
        simp only [Option.bind_eq_bind, Option.bind_some, e]
    · obtain ⟨ps, o, w, g1, g2, g3, g4, g5, g6, g7⟩ := ih2 (hs.drop _) (m - split ds.length) (by omega) (by omega) false
      obtain rfl : w = b := Option.some.inj (g3.symm.trans b1)
      obtain ⟨r', er', lr'⟩ := root_total T _ (hs.take m)
      have lm : (ds.take m).length = m := by rw [List.length_take]; omega
      have hsp : split m = split ds.length := split_eq (by omega) hmn
      obtain ⟨c, d, c1, d1, lc, ldd, e', -⟩ := root_parts T (hs.take m) (by omega) er'
      rw [lm, hsp, List.take_take, Nat.min_eq_left (by omega)] at c1
      rw [lm, hsp, List.drop_take] at d1
      obtain rfl : c = a := Option.some.inj (c1.symm.trans a1)
      obtain rfl : o = d := Option.some.inj (g2.symm.trans d1)
      rw [if_neg hik, a1, g1]
      refine ⟨c :: ps, r', r, rfl, er', er, ?_, lr', lr, fun old ho => ?_⟩
      · intro p hp
        rcases List.mem_cons.mp hp with rfl | hp
        · exact la
        · exact g4 p hp
      · have := g7 old (fun hh => by cases hh)
        rw [ld] at this
        rw [grow, if_neg hne, if_neg hik, this]
        simp only [Option.bind_eq_bind, Option.bind_some, e, e']

theorem grow_depth (old : Bytes) (ps : List Bytes) (m n : Nat) (known : Bool) (hm : 0 < m) (hmn : m ≤ n) {r : Bytes × Bytes} (e : grow h m n known old ps = some (some r)) :
    ps.length ≤ n := by
  induction ps generalizing m n known r with
  | nil => simp
  | cons p ps ih =>
    obtain ⟨o, w⟩ := r
    by_cases hne : m = n
    · rw [grow, if_pos hne] at e
      split at e
      · rename_i hh
        rw [hh.2]
        simp only [List.length_cons, List.length_nil]
        omega
      · cases e
    · have h1 := split_pos n
      have h2 := split_lt (n := n) (by omega)
      by_cases hk : m ≤ split n
      · obtain ⟨w', eg, -⟩ := grow_left hne hk e
        have := ih _ _ _ hm hk eg
        simp only [List.length_cons]; omega
      · obtain ⟨o', w', eg, -⟩ := grow_right hne hk e
        have := ih _ _ _ (by omega) (by omega) eg
        simp only [List.length_cons]; omega

end CryptoPure.Proofs.Merkle
