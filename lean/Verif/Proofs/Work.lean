import Verif.Proofs.LeakBasic

/-! Counting the events of a recorded run, with credit left in the result. -/

namespace CryptoPure.Leak

/-- The run has at most `n` events; when it ends with a result, `φ` of the result is left over, and the result satisfies `P`. -/
structure Within {α : Type} (n : Nat) (φ : α → Nat) (P : α → Prop) (x : L α) : Prop where
  steps : x.trace.length ≤ n
  post : ∀ a, x.val = some a → x.trace.length + φ a ≤ n ∧ P a

/-- Nothing left over. -/
abbrev Takes {α : Type} (n : Nat) (P : α → Prop) (x : L α) : Prop := Within n (fun _ => 0) P x

section
variable {α β σ ι : Type}

theorem Within.le {n m : Nat} {φ : α → Nat} {P : α → Prop} {x : L α} (h : Within n φ P x) (hm : n ≤ m) : Within m φ P x :=
  ⟨Nat.le_trans h.steps hm, fun a e => ⟨Nat.le_trans (h.post a e).1 hm, (h.post a e).2⟩⟩

theorem Within.mono {n : Nat} {φ ψ : α → Nat} {P Q : α → Prop} {x : L α} (h : Within n φ P x)
    (hm : ∀ a, P a → ψ a ≤ φ a ∧ Q a) : Within n ψ Q x :=
  ⟨h.steps, fun a e => by
    obtain ⟨h1, h2⟩ := h.post a e
    obtain ⟨h3, h4⟩ := hm a h2
    exact ⟨by omega, h4⟩⟩

/-- Another fact about the result. -/
theorem Within.and {n : Nat} {φ : α → Nat} {P Q : α → Prop} {x : L α} (h : Within n φ P x)
    (hq : ∀ a, x.val = some a → Q a) : Within n φ (fun a => P a ∧ Q a) x :=
  ⟨h.steps, fun a e => ⟨(h.post a e).1, (h.post a e).2, hq a e⟩⟩

theorem Within.pure {φ : α → Nat} {P : α → Prop} {a : α} (h : P a) : Within (φ a) φ P (Pure.pure a : L α) :=
  ⟨Nat.zero_le _, fun b e => by
    cases e
    exact ⟨by simp [Pure.pure, L.pure], h⟩⟩

theorem Within.bind {n k : Nat} {φ : α → Nat} {ψ : β → Nat} {P : α → Prop} {Q : β → Prop} {x : L α} {f : α → L β}
    (h : Within n φ P x) (hf : ∀ a, P a → Within (φ a + k) ψ Q (f a)) : Within (n + k) ψ Q (x >>= f) := by
  obtain ⟨t, v⟩ := x
  obtain ⟨h1, h2⟩ := h
  dsimp only at h1 h2
  show Within _ _ _ (L.bind _ _)
  unfold L.bind
  cases v with
  | none => exact ⟨by dsimp only; omega, fun a e => by cases e⟩
  | some a =>
    obtain ⟨h3, h4⟩ := h2 a rfl
    obtain ⟨h5, h6⟩ := hf a h4
    refine ⟨by simp only [List.length_append]; omega, fun b e => ?_⟩
    obtain ⟨h7, h8⟩ := h6 b e
    exact ⟨by simp only [List.length_append]; omega, h8⟩

/-- Sequencing without credit. -/
theorem Within.seq {n k : Nat} {ψ : β → Nat} {P : α → Prop} {Q : β → Prop} {x : L α} {f : α → L β}
    (h : Takes n P x) (hf : ∀ a, P a → Within k ψ Q (f a)) : Within (n + k) ψ Q (x >>= f) :=
  h.bind fun a ha => (hf a ha).le (by omega)

/-- Sequencing, with the number of events given for the whole. -/
theorem Within.step {n N : Nat} {ψ : β → Nat} {P : α → Prop} {Q : β → Prop} {x : L α} {f : α → L β}
    (h : Takes n P x) (hf : ∀ a, P a → Within (N - n) ψ Q (f a)) (hn : n ≤ N := by omega) : Within N ψ Q (x >>= f) :=
  (h.seq hf).le (by omega)

theorem takes_branch (b : Bool) : Takes 1 (fun c => c = b) (branch b) :=
  ⟨Nat.le_refl _, fun _ e => by cases e; exact ⟨Nat.le_refl _, rfl⟩⟩

theorem Within.cond {N : Nat} {ψ : β → Nat} {Q : β → Prop} {b : Bool} {x y : L β}
    (h1 : b = true → Within (N - 1) ψ Q x) (h2 : b = false → Within (N - 1) ψ Q y) (hn : 1 ≤ N := by omega) :
    Within N ψ Q (Leak.branch b >>= fun c => if c then x else y) :=
  (takes_branch b).step (fun c hc => by
    subst hc
    cases c
    · exact h2 rfl
    · exact h1 rfl) hn

theorem takes_check (b : Bool) : Takes 1 (fun _ => b = true) (check b) :=
  ⟨Nat.le_refl _, fun _ e => by
    cases b
    · cases e
    · exact ⟨Nat.le_refl _, rfl⟩⟩

theorem takes_get (l : List α) (i : Nat) (d : α) : Takes 1 (fun a => a = l.getD i d) (get l i d) :=
  ⟨Nat.le_refl _, fun _ e => by cases e; exact ⟨Nat.le_refl _, rfl⟩⟩

theorem takes_index (l : List α) (i : Nat) : Takes 1 (fun a => l[i]? = some a) (index l i) :=
  ⟨Nat.le_refl _, fun _ e => ⟨Nat.le_refl _, e⟩⟩

theorem takes_put (l : List α) (i : Nat) (x : α) : Takes 1 (fun a => a = l.set i x) (put l i x) :=
  ⟨Nat.le_refl _, fun _ e => by cases e; exact ⟨Nat.le_refl _, rfl⟩⟩

theorem takes_slice (l : List α) (a b : Nat) : Takes 2 (fun x => x = (l.drop a).take (b - a)) (slice l a b) :=
  ⟨Nat.le_refl _, fun _ e => by cases e; exact ⟨Nat.le_refl _, rfl⟩⟩

theorem takes_copy (l : List α) (o : Nat) (s : List α) : Takes 2 (fun x => x = copyAt l o s) (copy l o s) :=
  ⟨Nat.le_refl _, fun _ e => by cases e; exact ⟨Nat.le_refl _, rfl⟩⟩

theorem takes_op (o : Option α) : Takes 0 (fun a => o = some a) (op o) :=
  ⟨Nat.le_refl _, fun _ e => ⟨Nat.le_refl _, e⟩⟩

theorem takes_pure {P : α → Prop} {a : α} (h : P a) : Takes 0 P (Pure.pure a : L α) :=
  Within.pure (φ := fun _ => 0) h

theorem takes_done {n : Nat} {P : α → Prop} {a : α} (h : P a) : Takes n P (Pure.pure a : L α) :=
  (takes_pure h).le (Nat.zero_le _)

/-- A loop whose iterations take `k` each beyond the credit, plus `w` per unit of size of the element. -/
theorem within_loop_sum {φ : σ → Nat} {P : σ → Prop} {Q : ι → Prop} {f : σ → ι → L σ} {c : ι → Nat}
    (hf : ∀ s x, P s → Q x → Within (φ s + c x) φ P (f s x)) :
    ∀ (xs : List ι) (s : σ), (∀ x ∈ xs, Q x) → P s →
      Within (φ s + (xs.map c).sum + xs.length + 1) φ P (loop f xs s)
  | [], s, _, h => ⟨by simp [loop], fun a e => by
      cases e
      exact ⟨by simp [loop]; omega, h⟩⟩
  | x :: xs, s, hx, h => by
    have h1 : Within (1 + ((φ s + c x) + ((xs.map c).sum + xs.length + 1))) φ P (loop f (x :: xs) s) :=
      (takes_branch true).seq fun _ _ => (hf s x h (hx x (by simp))).bind fun s' h' =>
        (within_loop_sum hf xs s' (fun y hy => hx y (by simp [hy])) h').le (by omega)
    exact h1.le (by simp only [List.map_cons, List.sum_cons, List.length_cons]; omega)

theorem sum_const (xs : List ι) (k : Nat) : (xs.map fun _ => k).sum = xs.length * k := by
  induction xs with
  | nil => simp
  | cons x xs ih => simp only [List.map_cons, List.sum_cons, List.length_cons, ih, Nat.succ_mul]; omega

theorem takes_loop {P : σ → Prop} {Q : ι → Prop} {f : σ → ι → L σ} {k : Nat}
    (hf : ∀ s x, P s → Q x → Takes k P (f s x)) (xs : List ι) (s : σ) (hx : ∀ x ∈ xs, Q x) (h : P s) {n : Nat}
    (hn : xs.length ≤ n) : Takes (n * (k + 1) + 1) P (loop f xs s) := by
  have := within_loop_sum (φ := fun _ => 0) (c := fun _ => k) (fun s x hs hq => (hf s x hs hq).le (by omega)) xs s hx h
  refine this.le ?_
  rw [sum_const, Nat.zero_add]
  have : xs.length * (k + 1) ≤ n * (k + 1) := Nat.mul_le_mul_right _ hn
  have e : xs.length * (k + 1) = xs.length * k + xs.length := Nat.mul_succ _ _
  omega

theorem takes_each {P : β → Prop} {Q : ι → Prop} {f : ι → L β} {k : Nat} (hf : ∀ x, Q x → Takes k P (f x)) :
    ∀ (xs : List ι), (∀ x ∈ xs, Q x) →
      Takes (xs.length * (k + 1) + 1) (fun ys => ys.length = xs.length ∧ ∀ y ∈ ys, P y) (each f xs)
  | [], _ => ⟨by simp [each], fun a e => by
      cases e
      exact ⟨by simp [each], rfl, by simp⟩⟩
  | x :: xs, hx => by
    have h1 : Takes (1 + (k + ((xs.length * (k + 1) + 1) + 0)))
        (fun ys => ys.length = (x :: xs).length ∧ ∀ y ∈ ys, P y) (each f (x :: xs)) :=
      (takes_branch true).seq fun _ _ => (hf x (hx x (by simp))).seq fun y hy =>
        (takes_each hf xs (fun y hy => hx y (by simp [hy]))).seq fun ys hys =>
          takes_pure ⟨by simp [hys.1], by
            intro z hz
            rcases List.mem_cons.1 hz with rfl | hz
            · exact hy
            · exact hys.2 z hz⟩
    exact h1.le (by simp only [List.length_cons, Nat.succ_mul]; omega)

theorem takes_each_le {P : β → Prop} {f : ι → L β} {k n : Nat} (hf : ∀ x, Takes k P (f x)) (xs : List ι)
    (hn : xs.length ≤ n) :
    Takes (n * (k + 1) + 1) (fun ys => ys.length = xs.length ∧ ∀ y ∈ ys, P y) (each f xs) :=
  (takes_each (Q := fun _ => True) (fun x _ => hf x) xs (fun _ _ => trivial)).le
    (Nat.succ_le_succ (Nat.mul_le_mul_right _ hn))

end
end CryptoPure.Leak
