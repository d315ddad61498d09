import Verif.Leak.Basic
import Mathlib.Data.List.Forall2

/-! Values of recorded computations, and comparison of two recorded runs. -/

namespace CryptoPure.Leak

/-! ### Values -/

section
variable {α β σ ι : Type}

@[simp] theorem val_pure (x : α) : (Pure.pure x : L α).val = some x := rfl
@[simp] theorem val_bind (x : L α) (f : α → L β) : (x >>= f).val = x.val.bind fun a => (f a).val := by
  show (L.bind x f).val = _
  unfold L.bind
  cases x.val <;> rfl
@[simp] theorem val_branch (b : Bool) : (branch b).val = some b := rfl
@[simp] theorem val_check (b : Bool) : (check b).val = assert b := rfl
@[simp] theorem val_get (l : List α) (i : Nat) (d : α) : (get l i d).val = some (l.getD i d) := rfl
@[simp] theorem val_index (l : List α) (i : Nat) : (index l i).val = l[i]? := rfl
@[simp] theorem val_put (l : List α) (i : Nat) (x : α) : (put l i x).val = some (l.set i x) := rfl
@[simp] theorem val_slice (l : List α) (a b : Nat) : (slice l a b).val = some ((l.drop a).take (b - a)) := rfl
@[simp] theorem val_copy (l : List α) (a : Nat) (s : List α) : (copy l a s).val = some (copyAt l a s) := rfl
@[simp] theorem val_op (o : Option α) : (op o).val = o := rfl
theorem val_ite (b : Bool) (x y : L α) : (if b then x else y).val = if b then x.val else y.val := by cases b <;> rfl

theorem val_loop (f : σ → ι → L σ) (xs : List ι) (s : σ) :
    (loop f xs s).val = xs.foldlM (fun s x => (f s x).val) s := by
  induction xs generalizing s with
  | nil => rfl
  | cons x xs ih =>
    simp only [loop, val_bind, val_branch, Option.bind_some, List.foldlM_cons, Option.bind_eq_bind]
    congr 1
    funext s
    exact ih s

/-- A loop whose body cannot panic. -/
theorem val_loop_total (f : σ → ι → L σ) (g : σ → ι → σ) (h : ∀ s x, (f s x).val = some (g s x)) (xs : List ι) (s : σ) :
    (loop f xs s).val = some (xs.foldl g s) := by
  rw [val_loop]
  induction xs generalizing s with
  | nil => rfl
  | cons x xs ih =>
    rw [List.foldlM_cons, h, List.foldl_cons]
    exact ih _

theorem val_each (f : α → L β) (xs : List α) : (each f xs).val = xs.mapM fun x => (f x).val := by
  induction xs with
  | nil => rfl
  | cons x xs ih =>
    simp only [each, val_bind, val_branch, Option.bind_some, List.mapM_cons, ih, Option.bind_eq_bind]
    rfl

theorem val_each_total (f : α → L β) (g : α → β) (h : ∀ x, (f x).val = some (g x)) (xs : List α) :
    (each f xs).val = some (xs.map g) := by
  rw [val_each]
  induction xs with
  | nil => rfl
  | cons x xs ih =>
    rw [List.mapM_cons, h, ih]
    rfl

theorem val_each_pure (g : α → β) (xs : List α) : (each (fun x => (Pure.pure (g x) : L β)) xs).val = some (xs.map g) :=
  val_each_total _ g (fun _ => rfl) xs

end

/-! ### Comparing two runs -/

/-- The two runs are observed alike, and their results are related by `R` (or both panic). -/
structure Alike {α β : Type} (R : α → β → Prop) (x : L α) (y : L β) : Prop where
  trace : x.trace = y.trace
  val : match x.val, y.val with
    | none, none => True
    | some a, some b => R a b
    | _, _ => False

section
variable {α β γ δ σ τ ι κ : Type}

theorem Alike.pure {R : α → β → Prop} {a : α} {b : β} (h : R a b) : Alike R (Pure.pure a) (Pure.pure b) := ⟨rfl, h⟩

theorem Alike.bind {R : α → β → Prop} {S : γ → δ → Prop} {x : L α} {y : L β} {f : α → L γ} {g : β → L δ}
    (h : Alike R x y) (hf : ∀ a b, R a b → Alike S (f a) (g b)) : Alike S (x >>= f) (y >>= g) := by
  obtain ⟨tx, vx⟩ := x
  obtain ⟨ty, vy⟩ := y
  obtain ⟨h1, h2⟩ := h
  dsimp only at h1 h2
  subst h1
  show Alike S (L.bind _ _) (L.bind _ _)
  unfold L.bind
  cases vx <;> cases vy
  · exact ⟨rfl, trivial⟩
  · exact h2.elim
  · exact h2.elim
  · have := hf _ _ h2
    exact ⟨congrArg _ this.trace, this.val⟩

/-- Equal observations of two sequences, given something about their results. -/
theorem trace_bind {R : α → β → Prop} {P : γ → δ → Prop} {x : L α} {y : L β} {f : α → L γ} {g : β → L δ}
    (h : Alike R x y)
    (hf : ∀ a b, R a b → (∀ r r', (f a).val = some r → (g b).val = some r' → P r r') → (f a).trace = (g b).trace)
    (hP : ∀ r r', (x >>= f).val = some r → (y >>= g).val = some r' → P r r') : (x >>= f).trace = (y >>= g).trace := by
  obtain ⟨tx, vx⟩ := x
  obtain ⟨ty, vy⟩ := y
  obtain ⟨h1, h2⟩ := h
  dsimp only at h1 h2
  subst h1
  revert hP
  show (∀ r r', (L.bind _ _).val = some r → (L.bind _ _).val = some r' → P r r') → (L.bind _ _).trace = (L.bind _ _).trace
  unfold L.bind
  cases vx <;> cases vy
  · intro _; rfl
  · exact h2.elim
  · exact h2.elim
  · intro hP
    exact congrArg _ (hf _ _ h2 hP)

theorem Alike.mono {R S : α → β → Prop} {x : L α} {y : L β} (h : Alike R x y) (hs : ∀ a b, R a b → S a b) :
    Alike S x y := by
  refine ⟨h.trace, ?_⟩
  have := h.val
  revert this
  cases x.val <;> cases y.val <;> simp only [imp_self]
  exact hs _ _

theorem Alike.branch {b c : Bool} (h : b = c) : Alike (· = ·) (branch b) (branch c) := by subst h; exact ⟨rfl, rfl⟩

/-- `if c { .. } else { .. }` on a condition that is equal in both runs. -/
theorem Alike.cond {S : γ → δ → Prop} {b c : Bool} {x y : L γ} {x' y' : L δ} (h : b = c)
    (h1 : b = true → Alike S x x') (h2 : b = false → Alike S y y') :
    Alike S (Leak.branch b >>= fun b => if b then x else y) (Leak.branch c >>= fun c => if c then x' else y') := by
  subst h
  refine Alike.bind (R := fun a a' => a = b ∧ a' = b) ⟨rfl, rfl, rfl⟩ ?_
  rintro _ _ ⟨rfl, rfl⟩
  rename_i b
  cases b
  · exact h2 rfl
  · exact h1 rfl

theorem Alike.check {b c : Bool} (h : b = c) : Alike (fun _ _ => b = true) (check b) (check c) := by
  subst h
  refine ⟨rfl, ?_⟩
  cases b <;> simp [Leak.check]

theorem Alike.get {R : α → β → Prop} {l : List α} {l' : List β} {i : Nat} {d : α} {d' : β}
    (h : R (l.getD i d) (l'.getD i d')) : Alike R (get l i d) (get l' i d') := ⟨rfl, h⟩

theorem Alike.index {R : α → β → Prop} {l : List α} {l' : List β} {i : Nat} (h : List.Forall₂ R l l') :
    Alike R (index l i) (index l' i) := by
  refine ⟨rfl, ?_⟩
  show match l[i]?, l'[i]? with
    | none, none => True
    | some a, some b => R a b
    | _, _ => False
  induction h generalizing i with
  | nil => simp
  | cons h _ ih =>
    cases i with
    | zero => simpa using h
    | succ i => simpa using ih

theorem Alike.put {l : List α} {l' : List β} {i : Nat} {x : α} {x' : β} (h : l.length = l'.length) :
    Alike (fun a b => a.length = b.length) (put l i x) (put l' i x') := ⟨rfl, by simpa [Leak.put] using h⟩

theorem Alike.slice {l : List α} {l' : List β} {a b : Nat} (h : l.length = l'.length) :
    Alike (fun a b => a.length = b.length) (slice l a b) (slice l' a b) := ⟨rfl, by simp [Leak.slice, h]⟩

theorem Alike.copy {l : List α} {l' : List β} {a : Nat} {s : List α} {s' : List β} (h : l.length = l'.length)
    (hs : s.length = s'.length) :
    Alike (fun a b => a.length = b.length) (copy l a s) (copy l' a s') :=
  ⟨by simp [Leak.copy, hs], by simp [Leak.copy, copyAt, h, hs]⟩

theorem Alike.op {R : α → β → Prop} {o : Option α} {o' : Option β} (h : ∃ a b, o = some a ∧ o' = some b ∧ R a b) :
    Alike R (op o) (op o') := by
  obtain ⟨a, b, rfl, rfl, h⟩ := h
  exact ⟨rfl, h⟩

/-- Loops over sequences of equal length with related elements. -/
theorem Alike.loop {R : σ → τ → Prop} {Q : ι → κ → Prop} {f : σ → ι → L σ} {g : τ → κ → L τ}
    (hf : ∀ s t x y, R s t → Q x y → Alike R (f s x) (g t y)) :
    ∀ (xs : List ι) (ys : List κ) (s : σ) (t : τ), List.Forall₂ Q xs ys → R s t → Alike R (loop f xs s) (loop g ys t)
  | [], [], _, _, _, h => ⟨rfl, h⟩
  | x :: xs, y :: ys, s, t, .cons hxy hxs, h =>
    .bind (.branch rfl) fun _ _ _ => .bind (hf s t x y h hxy) fun _ _ h => Alike.loop hf xs ys _ _ hxs h

theorem Alike.each {R : γ → δ → Prop} {Q : ι → κ → Prop} {f : ι → L γ} {g : κ → L δ}
    (hf : ∀ x y, Q x y → Alike R (f x) (g y)) :
    ∀ (xs : List ι) (ys : List κ), List.Forall₂ Q xs ys → Alike (List.Forall₂ R) (each f xs) (each g ys)
  | [], [], _ => ⟨rfl, .nil⟩
  | x :: xs, y :: ys, .cons hxy hxs =>
    .bind (.branch rfl) fun _ _ _ => .bind (hf x y hxy) fun _ _ h => .bind (Alike.each hf xs ys hxs) fun _ _ hs =>
      .pure (.cons h hs)

end
end CryptoPure.Leak
