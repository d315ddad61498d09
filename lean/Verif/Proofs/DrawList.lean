import Verif.Props.HmacIdeal
import Verif.Spec.HmacTests
import Verif.Proofs.Prob
import Mathlib.Data.Fin.Tuple.Basic

/-! # A random function at different points is a list of random values -/

namespace CryptoPure.Props.DrawList
open CryptoPure.Model MacGame CryptoPure.Props
open Game (prob prob_prod prob_equiv prob_fst)

variable {w N n : Nat}

/-- The tags come from a list, one after the other. -/
def playList : Attacker w Bool → List Bytes → Option Bool
  | .stop b, _ => some b
  | .tag _ next, t :: ts => playList (next t) ts
  | _, _ => none

/-- If the tags have `n` bytes, the attacker only asks for tags, of texts of at most `N` bytes, never of one twice or of those in the list, at most `q` times. -/
def Fresh (N n : Nat) : Attacker w Bool → List Bytes → Nat → Prop
  | .stop _, _, _ => True
  | .tag M next, used, q => M.length ≤ N ∧ M ∉ used ∧ ∃ q', q = q' + 1 ∧ ∀ t, t.length = n → Fresh N n (next t) (M :: used) q'
  | .compress _ _ _, _, _ => False
  | .verify _ _ _, _, _ => False

theorem Fresh.mono {X : Attacker w Bool} {used : List Bytes} {q q' : Nat} (h : Fresh N n X used q) (hq : q ≤ q') : Fresh N n X used q' := by
  induction X generalizing used q q' with
  | stop b => trivial
  | compress H b next ih => exact h.elim
  | verify M t next ih => exact h.elim
  | tag M next ih =>
    obtain ⟨h1, h2, p, rfl, h3⟩ := h
    exact ⟨h1, h2, q' - 1, by omega, fun t ht => ih t (h3 t ht) (by omega)⟩

theorem Fresh.congr (f : Oct w → Bytes → Oct w) (X : Attacker w Bool) (used : List Bytes) (q : Nat) (h : Fresh N n X used q) (G G' : Keyed N n)
    (hG : ∀ x, x.1 ∉ used → G x = G' x) : play (idealWorld f G) X = play (idealWorld f G') X := by
  induction X generalizing used q with
  | stop b => rfl
  | compress H b next ih => exact h.elim
  | verify M t next ih => exact h.elim
  | tag M next ih =>
    obtain ⟨h1, h2, q', rfl, h3⟩ := h
    have e : G.ask M = G'.ask M := by
      unfold Keyed.ask
      rw [dif_pos h1, dif_pos h1, hG _ h2]
    show play _ (next (G.ask M)) = play _ (next (G'.ask M))
    rw [e]
    exact ih _ _ _ (h3 _ (by unfold Keyed.ask; rw [dif_pos h1]; exact (G' _).2)) fun x hx => hG x fun h => hx (List.mem_cons_of_mem _ h)

theorem prob_draw (f : Oct w → Bytes → Oct w) (X : Attacker w Bool) (used : List Bytes) (q : Nat) (h : Fresh N n X used q) :
    prob (fun G : Keyed N n => play (idealWorld f G) X = some true) =
      prob (fun τ : Fin q → {d : Bytes // d.length = n} => playList X (List.ofFn fun i => (τ i).1) = some true) := by
  classical
  have hne : Nonempty {d : Bytes // d.length = n} := ⟨⟨zeros n, by simp⟩⟩
  induction X generalizing used q with
  | stop b =>
    unfold play playList
    cases b
    · simp [prob]
    · rw [← prob_fst (β := Fin q → {d : Bytes // d.length = n}), ← prob_fst (α := Fin q → {d : Bytes // d.length = n}) (β := Keyed N n),
        ← prob_equiv (Equiv.prodComm (Keyed N n) (Fin q → {d : Bytes // d.length = n}))]
  | compress H b next ih => exact h.elim
  | verify M t next ih => exact h.elim
  | tag M next ih =>
    obtain ⟨h1, h2, q', rfl, h3⟩ := h
    have : Fintype {d : Bytes // d.length = n} := Fintype.ofFinite _
    let e : Keyed N n × {d : Bytes // d.length = n} ≃ Keyed N n × {d : Bytes // d.length = n} :=
      { toFun := fun x => (Function.update x.1 ⟨M, h1⟩ x.2, x.1 ⟨M, h1⟩)
        invFun := fun x => (Function.update x.1 ⟨M, h1⟩ x.2, x.1 ⟨M, h1⟩)
        left_inv := fun x => by simp
        right_inv := fun x => by simp }
    rw [← prob_fst (β := {d : Bytes // d.length = n}), ← prob_equiv e, prob_prod]
    rw [← prob_equiv (Fin.consEquiv fun _ : Fin (q' + 1) => {d : Bytes // d.length = n}), ← prob_equiv (Equiv.prodComm _ _), prob_prod]
    congr 1
    refine Finset.sum_congr rfl fun t _ => ?_
    have e1 : ∀ G : Keyed N n, play (idealWorld f (Function.update G ⟨M, h1⟩ t)) (.tag M next) = play (idealWorld f G) (next t.1) := by
      intro G
      have : Keyed.ask (Function.update G ⟨M, h1⟩ t) M = t.1 := by
        unfold Keyed.ask
        rw [dif_pos h1, Function.update_self]
      show play _ (next (Keyed.ask (Function.update G ⟨M, h1⟩ t) M)) = _
      rw [this]
      refine (h3 t.1 t.2).congr f _ _ _ _ _ fun x hx => Function.update_of_ne ?_ _ _
      rintro rfl
      exact hx List.mem_cons_self
    have e2 : ∀ τ : Fin q' → {d : Bytes // d.length = n},
        playList (.tag M next) (List.ofFn fun i => ((Fin.consEquiv fun _ : Fin (q' + 1) => {d : Bytes // d.length = n}) (t, τ) i).1) =
          playList (next t.1) (List.ofFn fun i => (τ i).1) := by
      intro τ
      rw [List.ofFn_succ]
      rfl
    have := ih t.1 (M :: used) q' (h3 _ t.2)
    show prob (fun G : Keyed N n => play (idealWorld f (Function.update G ⟨M, h1⟩ t)) (.tag M next) = some true) =
      prob (fun τ => playList (.tag M next) (List.ofFn fun i => ((Fin.consEquiv fun _ : Fin (q' + 1) => {d : Bytes // d.length = n}) (t, τ) i).1) = some true)
    simp only [e1, e2]
    exact this

end CryptoPure.Props.DrawList
