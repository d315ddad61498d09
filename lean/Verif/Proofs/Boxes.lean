import Verif.Spec.BoxesGame
import Verif.Proofs.Prob
import Verif.Props.ChaChaPerm
import Mathlib.Tactic.Ring
import Mathlib.Tactic.Linarith

/-! # Many boxes are as secret as one box

Anyone can seal, so an attacker against one box can make the others himself. -/

namespace CryptoPure.Proofs.Boxes
open CryptoPure.BoxGame CryptoPure.Props Game

/-- The attack with the second message in the first `k` boxes. -/
def playMix (B : Box) (pk secret : Bytes) : Nat → Attacker → List Bytes → List (Bytes × Sealed) → Bool
  | _, .stop guess, _, _ => guess
  | k, .send data msg msg' next, oneTime, got =>
    if msg.length ≠ msg'.length then playMix B pk secret k (next none) oneTime got
    else match oneTime with
      | [] => playMix B pk secret k (next none) [] got
      | x :: rest => match B.close pk x data (if 0 < k then msg' else msg) with
        | none => playMix B pk secret (k - 1) (next none) rest got
        | some box => playMix B pk secret (k - 1) (next (some box)) rest ((data, box) :: got)
  | k, .receive data box next, oneTime, got =>
    if (data, box) ∈ got then playMix B pk secret k (next none) oneTime got
    else playMix B pk secret k (next (B.opens secret data box)) oneTime got

theorem playMix_left (B : Box) (pk secret : Bytes) (A : Attacker) : ∀ oneTime got, playMix B pk secret 0 A oneTime got = playMany B false pk secret A oneTime got := by
  induction A with
  | stop g => intros; rfl
  | send data msg msg' next ih =>
    intro oneTime got
    rw [playMix.eq_def, playMany.eq_def]
    dsimp only
    simp only [ih, Nat.lt_irrefl, if_false, Nat.zero_sub, Bool.false_eq_true]
    congr 1
  | receive data b next ih =>
    intro oneTime got
    rw [playMix.eq_def, playMany.eq_def]
    dsimp only
    simp only [ih]

theorem playMix_right (B : Box) (pk secret : Bytes) (A : Attacker) : ∀ k oneTime got, oneTime.length ≤ k → playMix B pk secret k A oneTime got = playMany B true pk secret A oneTime got := by
  induction A with
  | stop g => intros; rfl
  | send data msg msg' next ih =>
    intro k oneTime got h
    rw [playMix.eq_def, playMany.eq_def]
    dsimp only
    split
    · exact ih _ _ _ _ h
    · cases oneTime with
      | nil => exact ih _ _ _ _ h
      | cons x rest =>
        simp only [List.length_cons] at h
        rw [if_pos (show 0 < k by omega), if_pos rfl]
        dsimp only
        cases B.close pk x data msg' with
        | none => exact ih _ _ _ _ (by omega)
        | some b => exact ih _ _ _ _ (by omega)
  | receive data b next ih =>
    intro k oneTime got h
    rw [playMix.eq_def, playMany.eq_def]
    dsimp only
    split
    · exact ih _ _ _ _ h
    · exact ih _ _ _ _ h

/-- An attacker against many boxes, as one against one box: he makes the boxes before (with the second message) and after (with the first) himself. -/
def lift (B : Box) (pk : Bytes) : Attacker → (before : List Bytes) → (waiting : Bool) → (after : List Bytes) → List (Bytes × Sealed) → Attacker
  | .stop guess, _, _, _, _ => .stop guess
  | .send data msg msg' next, before, waiting, after, got =>
    if msg.length ≠ msg'.length then lift B pk (next none) before waiting after got
    else if waiting then match before with
      | x :: before => match B.close pk x data msg' with
        | none => lift B pk (next none) before true after got
        | some box => lift B pk (next (some box)) before true after ((data, box) :: got)
      | [] => .send data msg msg' fun
        | none => lift B pk (next none) [] false after got
        | some box => lift B pk (next (some box)) [] false after ((data, box) :: got)
    else match after with
      | [] => lift B pk (next none) before false [] got
      | x :: after => match B.close pk x data msg with
        | none => lift B pk (next none) before false after got
        | some box => lift B pk (next (some box)) before false after ((data, box) :: got)
  | .receive data box next, before, waiting, after, got =>
    if (data, box) ∈ got then lift B pk (next none) before waiting after got
    else .receive data box fun r => lift B pk (next r) before waiting after got

theorem lift_after (B : Box) (right : Bool) (pk secret x : Bytes) (A : Attacker) :
    ∀ after got sg, (∀ b, sg = some b → b ∈ got) → play B right pk secret x (lift B pk A [] false after got) sg = playMix B pk secret 0 A after got := by
  induction A with
  | stop g => intros; rfl
  | send data msg msg' next ih =>
    intro after got sg h
    rw [lift.eq_def, playMix.eq_def]
    dsimp only
    split
    · exact ih _ _ _ _ h
    · rw [if_neg Bool.false_ne_true]
      cases after with
      | nil => exact ih _ _ _ _ h
      | cons y after =>
        rw [if_neg (Nat.lt_irrefl 0)]
        dsimp only
        cases B.close pk y data msg with
        | none => exact ih _ _ _ _ h
        | some b => exact ih _ _ _ _ fun b' hb => List.mem_cons_of_mem _ (h b' hb)
  | receive data b next ih =>
    intro after got sg h
    rw [lift.eq_def, playMix.eq_def]
    dsimp only
    split
    · exact ih _ _ _ _ h
    · rename_i hn
      rw [BoxGame.play, if_neg (fun e => hn (h _ e))]
      exact ih _ _ _ _ h

theorem lift_before (B : Box) (right : Bool) (pk secret x : Bytes) (after : List Bytes) (A : Attacker) :
    ∀ before got, play B right pk secret x (lift B pk A before true after got) none =
      playMix B pk secret (before.length + if right then 1 else 0) A (before ++ x :: after) got := by
  induction A with
  | stop g => intros; rfl
  | send data msg msg' next ih =>
    intro before got
    rw [lift.eq_def, playMix.eq_def]
    dsimp only
    split
    · exact ih _ _ _
    · rename_i hl
      rw [if_pos rfl]
      cases before with
      | nil =>
        dsimp only [List.nil_append, List.length_nil]
        rw [BoxGame.play, if_neg (by simp; omega)]
        have e : (if 0 < 0 + (if right then 1 else 0) then msg' else msg) = if right then msg' else msg := by cases right <;> rfl
        have e' : 0 + (if right then 1 else 0) - 1 = 0 := by cases right <;> rfl
        rw [e, e']
        cases B.close pk x data (if right then msg' else msg) with
        | none => exact lift_after B right pk secret x _ _ _ _ (by simp)
        | some b => exact lift_after B right pk secret x _ _ _ _ (by simp)
      | cons y before =>
        dsimp only [List.cons_append, List.length_cons]
        rw [if_pos (by omega)]
        have e : ∀ a b : Nat, a + 1 + b - 1 = a + b := by omega
        rw [e]
        cases B.close pk y data msg' with
        | none => exact ih _ _ _
        | some b => exact ih _ _ _
  | receive data b next ih =>
    intro before got
    rw [lift.eq_def, playMix.eq_def]
    dsimp only
    split
    · exact ih _ _ _
    · rw [BoxGame.play, if_neg (by simp)]
      exact ih _ _ _

/-- The attacker against one box. -/
def lifted (B : Box) (before after : List Bytes) (A : Bytes → Attacker) (pk : Bytes) : Attacker := lift B pk (A pk) before true after []

theorem within_mono {blocks : Nat → Nat → Nat} {l : Nat} (A : Attacker) : ∀ a b, a ≤ b → A.Within blocks l a → A.Within blocks l b := by
  induction A with
  | stop g => intros; trivial
  | send data msg msg' next ih => exact fun a b h h2 => ⟨h2.1, fun r => ih r a b h (h2.2 r)⟩
  | receive data box next ih =>
    rintro a b h ⟨h1, a', rfl, h2⟩
    exact ⟨h1, b - 1, by omega, fun r => ih r a' _ (by omega) (h2 r)⟩

theorem costs_mono {cost : Nat → Nat} (A : Attacker) : ∀ a b, a ≤ b → A.Costs cost a → A.Costs cost b := by
  induction A with
  | stop g => intros; trivial
  | send data msg msg' next ih =>
    rintro a b h ⟨a', rfl, h2⟩
    exact ⟨b - cost msg.length, by omega, fun r => ih r a' _ (by omega) (h2 r)⟩
  | receive data box next ih =>
    rintro a b h ⟨a', rfl, h2⟩
    exact ⟨b - cost box.2.1.length, by omega, fun r => ih r a' _ (by omega) (h2 r)⟩

theorem lift_within {blocks : Nat → Nat → Nat} {l : Nat} (B : Box) (pk : Bytes) (A : Attacker) :
    ∀ a before waiting after got, A.Within blocks l a → (lift B pk A before waiting after got).Within blocks l a := by
  induction A with
  | stop g => intros; trivial
  | send data msg msg' next ih =>
    intro a before waiting after got h
    rw [lift.eq_def]
    dsimp only
    split
    · exact ih _ _ _ _ _ _ (h.2 _)
    · split
      · split
        · split
          · exact ih _ _ _ _ _ _ (h.2 _)
          · exact ih _ _ _ _ _ _ (h.2 _)
        · refine ⟨h.1, fun r => ?_⟩
          cases r with
          | none => exact ih _ _ _ _ _ _ (h.2 _)
          | some b => exact ih _ _ _ _ _ _ (h.2 _)
      · split
        · exact ih _ _ _ _ _ _ (h.2 _)
        · split
          · exact ih _ _ _ _ _ _ (h.2 _)
          · exact ih _ _ _ _ _ _ (h.2 _)
  | receive data box next ih =>
    rintro a before waiting after got ⟨h1, a', rfl, h⟩
    rw [lift.eq_def]
    dsimp only
    split
    · exact within_mono _ _ _ (by omega) (ih _ _ _ _ _ _ (h _))
    · exact ⟨h1, a', rfl, fun r => ih _ _ _ _ _ _ (h _)⟩

theorem lift_costs {cost : Nat → Nat} (B : Box) (pk : Bytes) (A : Attacker) :
    ∀ s before waiting after got, A.Costs cost s → (lift B pk A before waiting after got).Costs cost s := by
  induction A with
  | stop g => intros; trivial
  | send data msg msg' next ih =>
    rintro s before waiting after got ⟨s', rfl, h⟩
    have le : s' ≤ cost msg.length + s' := Nat.le_add_left _ _
    rw [lift.eq_def]
    dsimp only
    split
    · exact costs_mono _ _ _ le (ih _ _ _ _ _ _ (h _))
    · split
      · split
        · split
          · exact costs_mono _ _ _ le (ih _ _ _ _ _ _ (h _))
          · exact costs_mono _ _ _ le (ih _ _ _ _ _ _ (h _))
        · refine ⟨s', rfl, fun r => ?_⟩
          cases r with
          | none => exact ih _ _ _ _ _ _ (h _)
          | some b => exact ih _ _ _ _ _ _ (h _)
      · split
        · exact costs_mono _ _ _ le (ih _ _ _ _ _ _ (h _))
        · split
          · exact costs_mono _ _ _ le (ih _ _ _ _ _ _ (h _))
          · exact costs_mono _ _ _ le (ih _ _ _ _ _ _ (h _))
  | receive data box next ih =>
    rintro s before waiting after got ⟨s', rfl, h⟩
    rw [lift.eq_def]
    dsimp only
    split
    · exact costs_mono _ _ _ (Nat.le_add_left _ _) (ih _ _ _ _ _ _ (h _))
    · exact ⟨s', rfl, fun r => ih _ _ _ _ _ _ (h _)⟩

/-! ## One more box -/

/-- The attack with the second message in the first `k` boxes. -/
def gameMix (B : Box) (k : Nat) (A : Bytes → Attacker) (secret : Bytes) (oneTime : List Bytes) : Bool :=
  match B.pub secret with
  | none => false
  | some pk => playMix B pk secret k (A pk) oneTime []

theorem game_lifted (B : Box) (right : Bool) (A : Bytes → Attacker) (secret x : Bytes) (before after : List Bytes) :
    game B right (lifted B before after A) secret x = gameMix B (before.length + if right then 1 else 0) A secret (before ++ x :: after) := by
  unfold game gameMix
  cases B.pub secret with
  | none => rfl
  | some pk => exact lift_before B right pk secret x after (A pk) before []

variable {K : Type} [Finite K] [Nonempty K]

/-- The list of one-time keys. -/
def listed (f : K → Bytes) {q : Nat} (g : Fin q → K) : List Bytes := List.ofFn fun i => f (g i)

omit [Finite K] in
theorem listed_split (f : K → Bytes) {q : Nat} (i : Fin q) (b : {j : Fin q // j ≠ i} → K) :
    ∃ before after : List Bytes, before.length = i ∧ ∀ x : K, listed f ((Equiv.funSplitAt i K).symm (x, b)) = before ++ f x :: after := by
  obtain ⟨x0⟩ := ‹Nonempty K›
  have hl : ∀ x, (listed f ((Equiv.funSplitAt i K).symm (x, b))).length = q := fun x => List.length_ofFn
  have hne : ∀ x (j : Fin q), j ≠ i → (Equiv.funSplitAt i K).symm (x, b) j = (Equiv.funSplitAt i K).symm (x0, b) j := by
    intro x j hj
    simp [Equiv.funSplitAt, Equiv.piSplitAt, hj]
  have heq : ∀ x, (Equiv.funSplitAt i K).symm (x, b) i = x := by
    intro x
    simp [Equiv.funSplitAt, Equiv.piSplitAt]
  refine ⟨(listed f ((Equiv.funSplitAt i K).symm (x0, b))).take i, (listed f ((Equiv.funSplitAt i K).symm (x0, b))).drop (i + 1), ?_, fun x => ?_⟩
  · rw [List.length_take, hl]
    have := i.2
    omega
  · have hi : (i : Nat) < (listed f ((Equiv.funSplitAt i K).symm (x, b))).length := by rw [hl]; exact i.2
    have e1 : (listed f ((Equiv.funSplitAt i K).symm (x, b)))[(i : Nat)] = f x := by
      have := List.getElem_ofFn (f := fun j => f ((Equiv.funSplitAt i K).symm (x, b) j)) (i := i) hi
      exact this.trans (congrArg f (heq x))
    have get : ∀ y (j : Nat) (hj : j < q), (listed f ((Equiv.funSplitAt i K).symm (y, b)))[j]? = some (f ((Equiv.funSplitAt i K).symm (y, b) ⟨j, hj⟩)) := by
      intro y j hj
      rw [List.getElem?_eq_getElem (by rw [hl]; exact hj)]
      exact congrArg some (List.getElem_ofFn (f := fun j => f ((Equiv.funSplitAt i K).symm (y, b) j)) (i := j) (by rw [List.length_ofFn]; exact hj))
    have agree : ∀ j, j ≠ (i : Nat) → (listed f ((Equiv.funSplitAt i K).symm (x, b)))[j]? = (listed f ((Equiv.funSplitAt i K).symm (x0, b)))[j]? := by
      intro j hj
      by_cases hq : j < q
      · rw [get x j hq, get x0 j hq, hne x ⟨j, hq⟩ (fun e => hj (congrArg Fin.val e))]
      · rw [List.getElem?_eq_none (by rw [hl]; omega), List.getElem?_eq_none (by rw [hl]; omega)]
    calc listed f ((Equiv.funSplitAt i K).symm (x, b))
        = (listed f ((Equiv.funSplitAt i K).symm (x, b))).take i ++ f x :: (listed f ((Equiv.funSplitAt i K).symm (x, b))).drop (i + 1) := by
          rw [← e1, List.getElem_cons_drop, List.take_append_drop]
      _ = _ := by
        congr 1
        · refine List.ext_getElem? fun j => ?_
          by_cases hj : j < i
          · rw [List.getElem?_take_of_lt hj, List.getElem?_take_of_lt hj, agree j (by omega)]
          · rw [List.getElem?_eq_none (by rw [List.length_take]; omega), List.getElem?_eq_none (by rw [List.length_take]; omega)]
        · congr 1
          refine List.ext_getElem? fun j => ?_
          rw [List.getElem?_drop, List.getElem?_drop, agree _ (by omega)]

/-- **Many boxes**: `q` times what can be said about one box. -/
theorem many (B : Box) (f : K → Bytes) (q : Nat) (A : Bytes → Attacker) (c : ℚ)
    (hc : ∀ before after, |prob (fun s : K × K => game B false (lifted B before after A) (f s.1) (f s.2) = true) -
      prob (fun s : K × K => game B true (lifted B before after A) (f s.1) (f s.2) = true)| ≤ c) :
    |prob (fun s : K × (Fin q → K) => gameMany B false A (f s.1) (List.ofFn fun i => f (s.2 i)) = true) -
      prob (fun s : K × (Fin q → K) => gameMany B true A (f s.1) (List.ofFn fun i => f (s.2 i)) = true)| ≤ q * c := by
  have hp : ∀ k, |prob (fun s : K × (Fin q → K) => gameMix B k A (f s.1) (listed f s.2) = true) -
      prob (fun s : K × (Fin q → K) => gameMix B (k + 1) A (f s.1) (listed f s.2) = true)| ≤ c ∨ q ≤ k := by
    intro k
    by_cases hk : k < q
    · left
      obtain ⟨i, hi⟩ : ∃ i : Fin q, i = ⟨k, hk⟩ := ⟨_, rfl⟩
      let e : (K × K) × ({j : Fin q // j ≠ i} → K) ≃ K × (Fin q → K) :=
        (Equiv.prodAssoc _ _ _).trans (Equiv.prodCongr (Equiv.refl K) (Equiv.funSplitAt i K).symm)
      rw [← prob_equiv e, ← prob_equiv e]
      refine prob_prod_close _ _ c fun b => ?_
      obtain ⟨before, after, h1, h2⟩ := listed_split f i b
      have h := hc before after
      simp only [game_lifted, h1, hi, Bool.false_eq_true, if_false, if_true, Nat.add_zero] at h
      have e1 : ∀ s : K × K, listed f (e (s, b)).2 = before ++ f s.2 :: after := fun s => h2 s.2
      have e2 : ∀ s : K × K, (e (s, b)).1 = s.1 := fun s => rfl
      simp only [e1, e2]
      exact h
    · exact Or.inr (by omega)
  have hs : ∀ k, k ≤ q → |prob (fun s : K × (Fin q → K) => gameMix B 0 A (f s.1) (listed f s.2) = true) -
      prob (fun s : K × (Fin q → K) => gameMix B k A (f s.1) (listed f s.2) = true)| ≤ k * c := by
    intro k
    induction k with
    | zero => intro _; simp
    | succ k ih =>
      intro hk
      have h1 := ih (by omega)
      have h2 := (hp k).resolve_right (by omega)
      have := abs_sub_le (prob (fun s : K × (Fin q → K) => gameMix B 0 A (f s.1) (listed f s.2) = true))
        (prob (fun s : K × (Fin q → K) => gameMix B k A (f s.1) (listed f s.2) = true))
        (prob (fun s : K × (Fin q → K) => gameMix B (k + 1) A (f s.1) (listed f s.2) = true))
      push_cast
      linarith
  have h := hs q (le_refl q)
  have e0 : ∀ s : K × (Fin q → K), gameMix B 0 A (f s.1) (listed f s.2) = gameMany B false A (f s.1) (List.ofFn fun i => f (s.2 i)) := by
    intro s
    unfold gameMix gameMany
    cases B.pub (f s.1) with
    | none => rfl
    | some pk => exact playMix_left B pk _ _ _ _
  have e1 : ∀ s : K × (Fin q → K), gameMix B q A (f s.1) (listed f s.2) = gameMany B true A (f s.1) (List.ofFn fun i => f (s.2 i)) := by
    intro s
    unfold gameMix gameMany
    cases B.pub (f s.1) with
    | none => rfl
    | some pk => exact playMix_right B pk _ _ _ _ _ (le_of_eq List.length_ofFn)
  simp only [e0, e1] at h
  exact h

end CryptoPure.Proofs.Boxes
