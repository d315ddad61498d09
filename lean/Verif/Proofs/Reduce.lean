import Verif.Spec.Distinguisher

/-! # Attacks as distinguishers -/

namespace CryptoPure.Distinguisher
open Game (Scheme Log Adversary prob)

variable {α β : Type}

theorem askAll_run (F : α → β) (xs : List α) (next : List (α × β) → Distinguisher α β) :
    (askAll xs next).run F = (next (xs.map fun x => (x, F x))).run F := by
  induction xs generalizing next with
  | nil => rfl
  | cons x xs ih =>
    rw [askAll, Distinguisher.run, ih]
    rfl

theorem Asks.mono {D : Distinguisher α β} {q q' : Nat} (h : D.Asks q) (hq : q ≤ q') : D.Asks q' := by
  induction D generalizing q q' with
  | verdict b => trivial
  | ask x next ih =>
    obtain ⟨p, rfl, hp⟩ := h
    exact ⟨q' - 1, by omega, fun y => ih y (hp y) (by omega)⟩

theorem askAll_asks (xs : List α) (next : List (α × β) → Distinguisher α β) (q : Nat) (h : ∀ t, (next t).Asks q) :
    (askAll xs next).Asks (xs.length + q) := by
  induction xs generalizing next with
  | nil => exact Asks.mono (h []) (by simp)
  | cons x xs ih =>
    exact ⟨xs.length + q, by simp only [List.length_cons]; omega, fun y => ih _ fun t => h _⟩

variable [DecidableEq α] [Inhabited β]

theorem table_map (F : α → β) (xs : List α) (x : α) (h : x ∈ xs) : table (xs.map fun x => (x, F x)) x = F x := by
  unfold table
  have : (xs.map fun x => (x, F x)).lookup x = some (F x) := by
    induction xs with
    | nil => simp at h
    | cons y xs ih =>
      rw [List.map_cons, List.lookup_cons]
      by_cases e : x = y
      · subst e; simp
      · rw [show (x == y) = false by simpa using e]
        exact ih ((List.mem_cons.mp h).resolve_left e)
  rw [this]; rfl

/-- A call needs only the values at its points. -/
structure Local (S : Scheme (α → β)) (points : Bytes → Nat → List α) : Prop where
  enc : ∀ F F' : α → β, ∀ msg nonce data buffer, (∀ x ∈ points nonce msg.length, F x = F' x) →
    S.enc F msg nonce data buffer = S.enc F' msg nonce data buffer
  dec : ∀ F F' : α → β, ∀ ct nonce data t buffer, (∀ x ∈ points nonce ct.length, F x = F' x) →
    S.dec F ct nonce data t buffer = S.dec F' ct nonce data t buffer

theorem accepted_iff (r : Option (Bytes × Bool)) : accepted r = true ↔ ∃ out, r = some (out, true) := by
  match r with
  | none => simp [accepted]
  | some (o, true) => simp [accepted]
  | some (o, false) => simp [accepted]

variable {S : Scheme (α → β)} {points : Bytes → Nat → List α}

theorem guessTest_run (hL : Local S points) (right : Bool) (F : α → β) (A : Adversary) (log : Log) :
    (guessTest S points right A log).run F = Game.play S right F A log := by
  induction A generalizing log with
  | stop g => rfl
  | encrypt nonce data msg msg' buffer next ih =>
    unfold guessTest Game.play
    by_cases hr : nonce ∈ log.map Prod.fst ∨ msg.length ≠ msg'.length
    · rw [if_pos hr, if_pos hr, ih]
    · rw [if_neg hr, if_neg hr, askAll_run]
      have hl : (if right = true then msg' else msg).length = msg.length := by
        rw [not_or, not_not] at hr
        split
        · exact hr.2.symm
        · rfl
      rw [hL.enc (table ((points nonce msg.length).map fun x => (x, F x))) F (if right = true then msg' else msg) nonce data buffer
        (by rw [hl]; exact fun x hx => table_map F _ x hx)]
      cases S.enc F (if right = true then msg' else msg) nonce data buffer with
      | none => exact ih _ _
      | some r => exact ih _ _
  | decrypt nonce data ct t buffer next ih =>
    unfold guessTest Game.play
    by_cases hr : (nonce, data, ct, t) ∈ log
    · rw [if_pos hr, if_pos hr, ih]
    · rw [if_neg hr, if_neg hr, askAll_run, hL.dec (table ((points nonce ct.length).map fun x => (x, F x))) F ct nonce data t buffer
        (fun x hx => table_map F _ x hx), ih]

theorem forgeryTest_run (hL : Local S points) (right : Bool) (F : α → β) (A : Adversary) (log : Log) :
    (forgeryTest S points right A log).run F = true ↔ Game.forges S right F A log := by
  induction A generalizing log with
  | stop g => simp [forgeryTest, Game.forges, Distinguisher.run]
  | encrypt nonce data msg msg' buffer next ih =>
    unfold forgeryTest Game.forges
    by_cases hr : nonce ∈ log.map Prod.fst ∨ msg.length ≠ msg'.length
    · rw [if_pos hr, if_pos hr, ih]
    · rw [if_neg hr, if_neg hr, askAll_run]
      have hl : (if right = true then msg' else msg).length = msg.length := by
        rw [not_or, not_not] at hr
        split
        · exact hr.2.symm
        · rfl
      rw [hL.enc (table ((points nonce msg.length).map fun x => (x, F x))) F (if right = true then msg' else msg) nonce data buffer
        (by rw [hl]; exact fun x hx => table_map F _ x hx)]
      cases S.enc F (if right = true then msg' else msg) nonce data buffer with
      | none => exact ih _ _
      | some r => exact ih _ _
  | decrypt nonce data ct t buffer next ih =>
    unfold forgeryTest Game.forges
    by_cases hr : (nonce, data, ct, t) ∈ log
    · rw [if_pos hr, if_pos hr, ih]
    · rw [if_neg hr, if_neg hr, askAll_run, hL.dec (table ((points nonce ct.length).map fun x => (x, F x))) F ct nonce data t buffer
        (fun x hx => table_map F _ x hx), ← accepted_iff, ← ih]
      cases accepted (S.dec F ct nonce data t buffer) <;> simp [Distinguisher.run]

theorem tests_asks (cost : Nat → Nat) (hc : ∀ nonce l, (points nonce l).length ≤ cost l) (right : Bool) (A : Adversary) (s : Nat)
    (hA : Costs cost A s) (log : Log) :
    (guessTest S points right A log).Asks s ∧ (forgeryTest S points right A log).Asks s := by
  induction A generalizing s log with
  | stop g => exact ⟨trivial, trivial⟩
  | encrypt nonce data msg msg' buffer next ih =>
    obtain ⟨s', rfl, h⟩ := hA
    unfold guessTest forgeryTest
    by_cases hr : nonce ∈ log.map Prod.fst ∨ msg.length ≠ msg'.length
    · rw [if_pos hr, if_pos hr]
      exact ⟨Asks.mono (ih _ _ (h _) _).1 (by omega), Asks.mono (ih _ _ (h _) _).2 (by omega)⟩
    · rw [if_neg hr, if_neg hr]
      refine ⟨Asks.mono (askAll_asks _ _ s' fun t => ?_) (Nat.add_le_add_right (hc nonce _) _),
        Asks.mono (askAll_asks _ _ s' fun t => ?_) (Nat.add_le_add_right (hc nonce _) _)⟩
      · cases S.enc (table t) (if right = true then msg' else msg) nonce data buffer with
        | none => exact (ih _ _ (h _) _).1
        | some r => exact (ih _ _ (h _) _).1
      · cases S.enc (table t) (if right = true then msg' else msg) nonce data buffer with
        | none => exact (ih _ _ (h _) _).2
        | some r => exact (ih _ _ (h _) _).2
  | decrypt nonce data ct t buffer next ih =>
    obtain ⟨s', rfl, h⟩ := hA
    unfold guessTest forgeryTest
    by_cases hr : (nonce, data, ct, t) ∈ log
    · rw [if_pos hr, if_pos hr]
      exact ⟨Asks.mono (ih _ _ (h _) _).1 (by omega), Asks.mono (ih _ _ (h _) _).2 (by omega)⟩
    · rw [if_neg hr, if_neg hr]
      refine ⟨Asks.mono (askAll_asks _ _ s' fun t => ?_) (Nat.add_le_add_right (hc nonce _) _),
        Asks.mono (askAll_asks _ _ s' fun t => ?_) (Nat.add_le_add_right (hc nonce _) _)⟩
      · exact (ih _ _ (h _) _).1
      · split
        · trivial
        · exact (ih _ _ (h _) _).2

end CryptoPure.Distinguisher
