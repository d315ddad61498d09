import Verif.Spec.KeyGame
import Verif.Spec.RandomAead
import Verif.Proofs.RandomAead
import Verif.Proofs.Resample

/-! # Messages and keys: the general argument -/

namespace CryptoPure.Proofs.KeyIdeal
open KeyGame
open Game (Scheme prob RandomBytes randomAead prob_prod prob_equiv prob_fst prob_snd)

variable {K T : Type} {u : Nat}

/-- What the users do. -/
structure Env (u : Nat) where
  enc : Fin u → (msg nonce data buffer : Bytes) → Option (Bytes × Bytes)
  dec : Fin u → (ct nonce data tag buffer : Bytes) → Option (Bytes × Bool)

/-- Users with keys. -/
def ofKeys (S : Scheme K) (k : Fin u → K) : Env u := ⟨fun i => S.enc (k i), fun i => S.dec (k i)⟩

/-- One user has another key. -/
def Env.set (E : Env u) (S : Scheme K) (h : Fin u) (k : K) : Env u := ⟨Function.update E.enc h (S.enc k), Function.update E.dec h (S.dec k)⟩

open Classical in
/-- The game with given users. -/
noncomputable def playEnv (E : Env u) (right : Bool) : Adversary u → List (Entry u) → Bool
  | .stop guess, _ => guess
  | .encrypt user user' nonce data msg msg' buffer next, log =>
    if Refused log user user' nonce msg msg' then playEnv E right (next none) log
    else match E.enc (if right then user' else user) (if right then msg' else msg) nonce data buffer with
      | none => playEnv E right (next none) log
      | some (ct, t) => playEnv E right (next (some (ct, t))) (⟨user, user', nonce, data, ct, t⟩ :: log)
  | .decrypt user nonce data ct t buffer next, log =>
    if Known log user nonce data ct t then playEnv E right (next none) log
    else playEnv E right (next (E.dec user ct nonce data t buffer)) log

theorem play_env (S : Scheme K) (right : Bool) (k : Fin u → K) (A : Adversary u) (log : List (Entry u)) :
    play S right k A log = playEnv (ofKeys S k) right A log := by
  induction A generalizing log with
  | stop g => rfl
  | encrypt user user' nonce data msg msg' buffer next ih =>
    unfold play playEnv
    split
    · exact ih _ _
    · show (match S.enc _ _ _ _ _ with | none => _ | some (ct, t) => _) = (match S.enc _ _ _ _ _ with | none => _ | some (ct, t) => _)
      generalize S.enc _ _ nonce data buffer = r
      match r with
      | none => exact ih _ _
      | some (ct, t) => exact ih _ _
  | decrypt user nonce data ct t buffer next ih =>
    unfold play playEnv
    split
    · exact ih _ _
    · exact ih _ _

open Classical in
/-- The attack on user `h`: the others are simulated. -/
noncomputable def focus (E : Env u) (right : Bool) (h : Fin u) : Adversary u → List (Entry u) → Game.Adversary
  | .stop guess, _ => .stop guess
  | .encrypt user user' nonce data msg msg' buffer next, log =>
    if Refused log user user' nonce msg msg' then focus E right h (next none) log
    else if (if right then user' else user) = h then
      .encrypt nonce data (if right then msg' else msg) (if right then msg' else msg) buffer fun
        | none => focus E right h (next none) log
        | some (ct, t) => focus E right h (next (some (ct, t))) (⟨user, user', nonce, data, ct, t⟩ :: log)
    else match E.enc (if right then user' else user) (if right then msg' else msg) nonce data buffer with
      | none => focus E right h (next none) log
      | some (ct, t) => focus E right h (next (some (ct, t))) (⟨user, user', nonce, data, ct, t⟩ :: log)
  | .decrypt user nonce data ct t buffer next, log =>
    if Known log user nonce data ct t then focus E right h (next none) log
    else if user = h then .decrypt nonce data ct t buffer fun r => focus E right h (next r) log
    else focus E right h (next (E.dec user ct nonce data t buffer)) log

/-- What was sent with the key of user `h`. -/
def Sub (right : Bool) (h : Fin u) (log : List (Entry u)) (l : Game.Log) : Prop :=
  ∀ x ∈ l, ∃ e ∈ log, (if right then e.user' else e.user) = h ∧ x = (e.nonce, e.data, e.ct, e.tag)

theorem Sub.cons {right : Bool} {h : Fin u} {log : List (Entry u)} {l : Game.Log} (hs : Sub right h log l) (e : Entry u) : Sub right h (e :: log) l :=
  fun x hx => (hs x hx).imp fun _ he => ⟨List.mem_cons_of_mem _ he.1, he.2⟩

theorem focus_play (S : Scheme K) (E : Env u) (right : Bool) (h : Fin u) (k : K) (A : Adversary u) (log : List (Entry u)) (l : Game.Log) (hs : Sub right h log l) :
    Game.play S false k (focus E right h A log) l = playEnv (E.set S h k) right A log := by
  induction A generalizing log l with
  | stop g => rfl
  | encrypt user user' nonce data msg msg' buffer next ih =>
    unfold focus playEnv
    by_cases hr : Refused log user user' nonce msg msg'
    · rw [if_pos hr, if_pos hr]
      exact ih _ _ _ hs
    · rw [if_neg hr, if_neg hr]
      by_cases hh : (if right then user' else user) = h
      · rw [if_pos hh, hh]
        have hnew : ¬ (nonce ∈ l.map Prod.fst ∨ (if right then msg' else msg).length ≠ (if right then msg' else msg).length) := by
          rintro (hm | hm)
          · obtain ⟨x, hx, e⟩ := List.mem_map.mp hm
            obtain ⟨en, h1, h2, rfl⟩ := hs x hx
            refine hr (Or.inr ⟨en, h1, e, ?_⟩)
            cases right
            · exact Or.inl (h2.trans hh.symm)
            · exact Or.inr (h2.trans hh.symm)
          · exact hm rfl
        unfold Game.play
        rw [if_neg hnew, if_neg Bool.false_ne_true]
        have : (E.set S h k).enc h = S.enc k := Function.update_self ..
        rw [this]
        generalize S.enc k _ nonce data buffer = r
        match r with
        | none => exact ih _ _ _ hs
        | some (ct, t) =>
          refine ih _ _ _ fun x hx => ?_
          rcases List.mem_cons.mp hx with rfl | hx
          · exact ⟨_, List.mem_cons_self, hh, rfl⟩
          · exact hs.cons _ x hx
      · rw [if_neg hh]
        have : (E.set S h k).enc (if right then user' else user) = E.enc (if right then user' else user) := Function.update_of_ne hh _ _
        rw [this]
        generalize E.enc _ _ nonce data buffer = r
        match r with
        | none => exact ih _ _ _ hs
        | some (ct, t) => exact ih _ _ _ (hs.cons _)
  | decrypt user nonce data ct t buffer next ih =>
    unfold focus playEnv
    by_cases hr : Known log user nonce data ct t
    · rw [if_pos hr, if_pos hr]
      exact ih _ _ _ hs
    · rw [if_neg hr, if_neg hr]
      by_cases hh : user = h
      · rw [if_pos hh]
        have hnew : (nonce, data, ct, t) ∉ l := by
          intro hm
          obtain ⟨e, h1, h2, h3⟩ := hs _ hm
          simp only [Prod.mk.injEq] at h3
          obtain ⟨h3, h4, h5, h6⟩ := h3
          refine hr ⟨e, h1, ?_, h3.symm, h4.symm, h5.symm, h6.symm⟩
          cases right
          · exact Or.inl (h2.trans hh.symm)
          · exact Or.inr (h2.trans hh.symm)
        unfold Game.play
        have : (E.set S h k).dec user = S.dec k := by rw [hh]; exact Function.update_self ..
        rw [if_neg hnew, this]
        exact ih _ _ _ hs
      · rw [if_neg hh]
        have : (E.set S h k).dec user = E.dec user := Function.update_of_ne hh _ _
        rw [this]
        exact ih _ _ _ hs

theorem game_within_mono {blocks : Nat → Nat → Nat} {n : Nat} {A : Game.Adversary} {a b : Nat} (h : Game.Within blocks n A a) (hab : a ≤ b) : Game.Within blocks n A b := by
  induction A generalizing a b with
  | stop g => trivial
  | encrypt nonce data msg msg' buffer next ih => exact ⟨h.1, fun r => ih r (h.2 r) hab⟩
  | decrypt nonce data ct t buffer next ih =>
    obtain ⟨h1, c, rfl, h2⟩ := h
    exact ⟨h1, b - 1, by omega, fun r => ih r (h2 r) (by omega)⟩

theorem focus_within {blocks : Nat → Nat → Nat} {n : Nat} (E : Env u) (right : Bool) (h : Fin u) (A : Adversary u) (a : Nat) (hA : Within blocks n A a) (log : List (Entry u)) :
    Game.Within blocks n (focus E right h A log) a := by
  induction A generalizing a log with
  | stop g => trivial
  | encrypt user user' nonce data msg msg' buffer next ih =>
    unfold focus
    by_cases hr : Refused log user user' nonce msg msg'
    · rw [if_pos hr]
      exact ih _ _ (hA.2 _) _
    · rw [if_neg hr]
      have hl : (if right then msg' else msg).length = msg.length := by
        split
        · exact (not_not.mp (not_or.mp hr).1).symm
        · rfl
      by_cases hh : (if right then user' else user) = h
      · rw [if_pos hh]
        refine ⟨by rw [hl]; exact hA.1, fun r => ?_⟩
        match r with
        | none => exact ih _ _ (hA.2 _) _
        | some (ct, t) => exact ih _ _ (hA.2 _) _
      · rw [if_neg hh]
        generalize E.enc _ _ nonce data buffer = r
        match r with
        | none => exact ih _ _ (hA.2 _) _
        | some (ct, t) => exact ih _ _ (hA.2 _) _
  | decrypt user nonce data ct t buffer next ih =>
    obtain ⟨h1, b, rfl, h2⟩ := hA
    unfold focus
    split
    · exact game_within_mono (ih _ _ (h2 _) _) (by omega)
    · split
      · exact ⟨h1, b, rfl, fun r => ih _ _ (h2 r) _⟩
      · exact game_within_mono (ih _ _ (h2 _) _) (by omega)

/-! ## Replacing the keys one after the other -/

/-- The first `t` users have keys of the second kind. -/
def hybrid (S : Scheme K) (R : Scheme T) (t : Nat) (ks : Fin u → K) (Ts : Fin u → T) : Env u :=
  ⟨fun i => if i.1 < t then R.enc (Ts i) else S.enc (ks i), fun i => if i.1 < t then R.dec (Ts i) else S.dec (ks i)⟩

theorem hybrid_zero (S : Scheme K) (R : Scheme T) (ks : Fin u → K) (Ts : Fin u → T) : hybrid S R 0 ks Ts = ofKeys S ks := by
  unfold hybrid ofKeys
  simp

theorem hybrid_all (S : Scheme K) (R : Scheme T) (ks : Fin u → K) (Ts : Fin u → T) : hybrid S R u ks Ts = ofKeys R Ts := by
  unfold hybrid ofKeys
  simp

theorem hybrid_left (S : Scheme K) (R : Scheme T) (h : Fin u) (ks : Fin u → K) (Ts : Fin u → T) (k : K) :
    hybrid S R h.1 (Function.update ks h k) Ts = (hybrid S R h.1 ks Ts).set S h k := by
  unfold hybrid Env.set
  congr 1
  · funext i
    by_cases hi : i = h
    · subst hi; simp
    · rw [Function.update_of_ne hi, Function.update_of_ne hi]
  · funext i
    by_cases hi : i = h
    · subst hi; simp
    · rw [Function.update_of_ne hi, Function.update_of_ne hi]

theorem hybrid_right (S : Scheme K) (R : Scheme T) (h : Fin u) (ks : Fin u → K) (Ts : Fin u → T) (t : T) :
    hybrid S R (h.1 + 1) ks (Function.update Ts h t) = (hybrid S R h.1 ks Ts).set R h t := by
  have hlt : ∀ i : Fin u, i ≠ h → (i.1 < h.1 + 1 ↔ i.1 < h.1) := fun i hi => by
    have : i.1 ≠ h.1 := fun e => hi (Fin.ext e)
    omega
  unfold hybrid Env.set
  congr 1
  · funext i
    by_cases hi : i = h
    · subst hi; simp
    · rw [Function.update_of_ne hi, Function.update_of_ne hi]
      simp only [hlt i hi]
  · funext i
    by_cases hi : i = h
    · subst hi; simp
    · rw [Function.update_of_ne hi, Function.update_of_ne hi]
      simp only [hlt i hi]

theorem prob_slot {X : Type} [Finite K] [Nonempty K] [Finite X] [Nonempty X] [Fintype ((Fin u → K) × X)] (h : Fin u) (P : (Fin u → K) → X → Prop) :
    prob (fun x : (Fin u → K) × X => P x.1 x.2) =
      (∑ x : (Fin u → K) × X, prob fun k => P (Function.update x.1 h k) x.2) / Fintype.card ((Fin u → K) × X) := by
  classical
  let e : K × ((Fin u → K) × X) ≃ ((Fin u → K) × X) × K :=
    { toFun := fun x => ((Function.update x.2.1 h x.1, x.2.2), x.2.1 h)
      invFun := fun x => (x.1.1 h, (Function.update x.1.1 h x.2, x.1.2))
      left_inv := fun x => by simp
      right_inv := fun x => by simp }
  rw [← prob_fst (β := K), ← prob_equiv e, prob_prod]
  rfl

theorem slot_near [Finite K] [Nonempty K] [Finite T] [Nonempty T] (h : Fin u) (P Q : (Fin u → K) → (Fin u → T) → Prop) (B : ℚ)
    (hB : ∀ ks Ts, |(prob fun k => P (Function.update ks h k) Ts) - (prob fun t => Q ks (Function.update Ts h t))| ≤ B) :
    |prob (fun x : (Fin u → K) × (Fin u → T) => P x.1 x.2) - prob (fun x : (Fin u → K) × (Fin u → T) => Q x.1 x.2)| ≤ B := by
  classical
  have : Fintype K := Fintype.ofFinite K
  have : Fintype T := Fintype.ofFinite T
  have e : prob (fun x : (Fin u → K) × (Fin u → T) => Q x.1 x.2) =
      (∑ x : (Fin u → K) × (Fin u → T), prob fun t => Q x.1 (Function.update x.2 h t)) / Fintype.card ((Fin u → K) × (Fin u → T)) := by
    have h1 := prob_equiv (Equiv.prodComm (Fin u → T) (Fin u → K)) (fun x => Q x.1 x.2)
    rw [← h1]
    have h2 := prob_slot h (fun (Ts : Fin u → T) (ks : Fin u → K) => Q ks Ts)
    refine h2.trans ?_
    rw [Fintype.card_congr (Equiv.prodComm (Fin u → T) (Fin u → K)), ← (Equiv.prodComm (Fin u → T) (Fin u → K)).sum_comp]
    rfl
  rw [prob_slot h P, e, ← sub_div, ← Finset.sum_sub_distrib]
  have hc : (0 : ℚ) < Fintype.card ((Fin u → K) × (Fin u → T)) := by exact_mod_cast Fintype.card_pos
  rw [abs_div, abs_of_pos hc, div_le_iff₀ hc]
  refine (Finset.abs_sum_le_sum_abs _ _).trans ((Finset.sum_le_sum fun x _ => hB x.1 x.2).trans ?_)
  rw [Finset.sum_const, Finset.card_univ, nsmul_eq_mul, mul_comm]

theorem hybrids [Finite K] [Nonempty K] [Finite T] [Nonempty T] (S : Scheme K) (R : Scheme T) (right : Bool) (A : Adversary u) (B : ℚ)
    (hB : ∀ (h : Fin u) (ks : Fin u → K) (Ts : Fin u → T),
      |prob (fun k => Game.play S false k (focus (hybrid S R h.1 ks Ts) right h A []) [] = true) -
        prob (fun t => Game.play R false t (focus (hybrid S R h.1 ks Ts) right h A []) [] = true)| ≤ B) :
    |prob (fun ks : Fin u → K => play S right ks A [] = true) - prob (fun Ts : Fin u → T => play R right Ts A [] = true)| ≤ u * B := by
  have key : ∀ t, t ≤ u → |prob (fun x : (Fin u → K) × (Fin u → T) => playEnv (hybrid S R 0 x.1 x.2) right A [] = true) -
      prob (fun x : (Fin u → K) × (Fin u → T) => playEnv (hybrid S R t x.1 x.2) right A [] = true)| ≤ t * B := by
    intro t
    induction t with
    | zero => intro _; simp
    | succ t ih =>
      intro ht
      have h1 := ih (by omega)
      have h2 := slot_near (⟨t, ht⟩ : Fin u) (fun ks Ts => playEnv (hybrid S R t ks Ts) right A [] = true)
        (fun ks Ts => playEnv (hybrid S R (t + 1) ks Ts) right A [] = true) B (fun ks Ts => by
          have := hB ⟨t, ht⟩ ks Ts
          have e1 : ∀ k, playEnv (hybrid S R t (Function.update ks ⟨t, ht⟩ k) Ts) right A [] =
              Game.play S false k (focus (hybrid S R t ks Ts) right ⟨t, ht⟩ A []) [] := fun k => by
            rw [focus_play S _ right _ k A [] [] (by intro x hx; simp at hx)]
            exact congrArg (fun E => playEnv E right A []) (hybrid_left S R ⟨t, ht⟩ ks Ts k)
          have e2 : ∀ r, playEnv (hybrid S R (t + 1) ks (Function.update Ts ⟨t, ht⟩ r)) right A [] =
              Game.play R false r (focus (hybrid S R t ks Ts) right ⟨t, ht⟩ A []) [] := fun r => by
            rw [focus_play R _ right _ r A [] [] (by intro x hx; simp at hx)]
            exact congrArg (fun E => playEnv E right A []) (hybrid_right S R ⟨t, ht⟩ ks Ts r)
          simp only [e1, e2]
          exact this)
      have h1 := abs_le.mp h1
      have h2 := abs_le.mp h2
      push_cast
      rw [abs_le]
      constructor <;> linarith [h1.1, h1.2, h2.1, h2.2]
  have := key u le_rfl
  simp only [hybrid_zero, hybrid_all, ← play_env] at this
  rwa [prob_fst (β := Fin u → T) (fun ks => play S right ks A [] = true), prob_snd (α := Fin u → K) (fun Ts => play R right Ts A [] = true)] at this

/-! ## The ideal cipher -/

variable {l : Nat}

/-- The game depends on the random bytes of new nonces only. -/
theorem ideal_local (right : Bool) (A : Adversary u) (log : List (Entry u)) (Ts Ts' : Fin u → RandomBytes (l + 16))
    (h : ∀ i n, (∀ e ∈ log, ¬ (e.nonce = n.1 ∧ (if right then e.user' else e.user) = i)) → Ts i n = Ts' i n) :
    play (randomAead l) right Ts A log = play (randomAead l) right Ts' A log := by
  induction A generalizing log with
  | stop g => rfl
  | encrypt user user' nonce data msg msg' buffer next ih =>
    unfold play
    by_cases hr : Refused log user user' nonce msg msg'
    · rw [if_pos hr, if_pos hr]
      exact ih _ _ h
    · rw [if_neg hr, if_neg hr]
      have e : (randomAead l).enc (Ts (if right then user' else user)) (if right then msg' else msg) nonce data buffer =
          (randomAead l).enc (Ts' (if right then user' else user)) (if right then msg' else msg) nonce data buffer := by
        show dite _ _ _ = dite _ _ _
        split
        · rename_i hn
          rw [h _ ⟨nonce, hn⟩ fun e he hc => hr (Or.inr ⟨e, he, hc.1, ?_⟩)]
          cases right
          · exact Or.inl hc.2
          · exact Or.inr hc.2
        · rfl
      rw [e]
      generalize (randomAead l).enc _ _ nonce data buffer = r
      match r with
      | none => exact ih _ _ h
      | some (ct, t) => exact ih _ _ fun i n hi => h i n fun e he => hi e (List.mem_cons_of_mem _ he)
  | decrypt user nonce data ct t buffer next ih =>
    unfold play
    split
    · exact ih _ _ h
    · exact ih _ _ h

instance : Finite (RandomBytes l) := inferInstance

instance : Nonempty (RandomBytes l) := inferInstance

theorem resample (i : Fin u) (n : {n : Bytes // n.length = 12}) [Fintype (Game.RandomAead.Out l)] (P : (Fin u → RandomBytes l) → Prop) :
    prob P = (∑ b : Game.RandomAead.Out l, prob fun Ts : Fin u → RandomBytes l => P (Function.update Ts i (Function.update (Ts i) n b))) /
      Fintype.card (Game.RandomAead.Out l) := by
  classical
  let e : (Fin u → RandomBytes l) × Game.RandomAead.Out l ≃ (Fin u → RandomBytes l) × Game.RandomAead.Out l :=
    { toFun := fun x => (Function.update x.1 i (Function.update (x.1 i) n x.2), x.1 i n)
      invFun := fun x => (Function.update x.1 i (Function.update (x.1 i) n x.2), x.1 i n)
      left_inv := fun x => by simp
      right_inv := fun x => by simp }
  rw [← prob_fst (β := Game.RandomAead.Out l), ← prob_equiv e, prob_prod]
  rfl

theorem ideal_same (A : Adversary u) (log : List (Entry u)) :
    prob (fun Ts : Fin u → RandomBytes (l + 16) => play (randomAead l) false Ts A log = true) =
      prob (fun Ts : Fin u → RandomBytes (l + 16) => play (randomAead l) true Ts A log = true) := by
  classical
  have : Fintype (Game.RandomAead.Out (l + 16)) := Fintype.ofFinite _
  induction A generalizing log with
  | stop g => rfl
  | encrypt user user' nonce data msg msg' buffer next ih =>
    unfold play
    by_cases hr : Refused log user user' nonce msg msg'
    · simp only [if_pos hr]
      exact ih _ _
    · simp only [if_neg hr, Bool.false_eq_true, if_false, if_true]
      have hl : msg'.length = msg.length := (not_not.mp (not_or.mp hr).1).symm
      by_cases hn : nonce.length = 12 ∧ buffer.length = msg.length
      · obtain ⟨hn, hb⟩ := hn
        have he : ∀ (T : RandomBytes (l + 16)) (x : Bytes), x.length = msg.length → (randomAead l).enc T x nonce data buffer =
            some ((T ⟨nonce, hn⟩).1.take msg.length, ((T ⟨nonce, hn⟩).1.drop msg.length).take 16) := by
          intro T x hx
          show dite _ _ _ = _
          rw [dif_pos hn, if_pos (by rw [hb, hx]), hx]
        simp only [he _ msg rfl, he _ msg' hl]
        rw [resample user ⟨nonce, hn⟩, resample user' ⟨nonce, hn⟩ (fun Ts : Fin u → RandomBytes (l + 16) => play (randomAead l) true Ts _ _ = true)]
        congr 1
        refine Finset.sum_congr rfl fun b _ => ?_
        simp only [Function.update_self]
        rw [← sub_eq_zero]
        have h1 : ∀ Ts : Fin u → RandomBytes (l + 16), play (randomAead l) false (Function.update Ts user (Function.update (Ts user) ⟨nonce, hn⟩ b))
            (next (some (b.1.take msg.length, (b.1.drop msg.length).take 16))) (⟨user, user', nonce, data, b.1.take msg.length, (b.1.drop msg.length).take 16⟩ :: log) =
            play (randomAead l) false Ts
            (next (some (b.1.take msg.length, (b.1.drop msg.length).take 16))) (⟨user, user', nonce, data, b.1.take msg.length, (b.1.drop msg.length).take 16⟩ :: log) := by
          intro Ts
          refine ideal_local false _ _ _ _ fun i n hi => ?_
          have := hi _ List.mem_cons_self
          by_cases hu : i = user
          · subst hu
            rw [Function.update_self, Function.update_of_ne]
            rintro rfl
            exact this ⟨rfl, rfl⟩
          · rw [Function.update_of_ne hu]
        have h2 : ∀ Ts : Fin u → RandomBytes (l + 16), play (randomAead l) true (Function.update Ts user' (Function.update (Ts user') ⟨nonce, hn⟩ b))
            (next (some (b.1.take msg.length, (b.1.drop msg.length).take 16))) (⟨user, user', nonce, data, b.1.take msg.length, (b.1.drop msg.length).take 16⟩ :: log) =
            play (randomAead l) true Ts
            (next (some (b.1.take msg.length, (b.1.drop msg.length).take 16))) (⟨user, user', nonce, data, b.1.take msg.length, (b.1.drop msg.length).take 16⟩ :: log) := by
          intro Ts
          refine ideal_local true _ _ _ _ fun i n hi => ?_
          have := hi _ List.mem_cons_self
          by_cases hu : i = user'
          · subst hu
            rw [Function.update_self, Function.update_of_ne]
            rintro rfl
            exact this ⟨rfl, rfl⟩
          · rw [Function.update_of_ne hu]
        simp only [h1, h2]
        rw [sub_eq_zero]
        exact ih _ _
      · have he : ∀ (T : RandomBytes (l + 16)) (x : Bytes), x.length = msg.length → (randomAead l).enc T x nonce data buffer = none := by
          intro T x hx
          show dite _ _ _ = _
          by_cases h12 : nonce.length = 12
          · rw [dif_pos h12, if_neg fun hb => hn ⟨h12, by rw [hb, hx]⟩]
          · rw [dif_neg h12]
        simp only [he _ msg rfl, he _ msg' hl]
        exact ih _ _
  | decrypt user nonce data ct t buffer next ih =>
    unfold play
    by_cases hr : Known log user nonce data ct t
    · simp only [if_pos hr]
      exact ih _ _
    · simp only [if_neg hr]
      exact ih _ _

/-- Messages and keys stay hidden, if the cipher looks like the ideal one. -/
theorem hidden [Finite K] [Nonempty K] (S : Scheme K) (A : Adversary u) (B : ℚ)
    (hB : ∀ (right : Bool) (h : Fin u) (ks : Fin u → K) (Ts : Fin u → RandomBytes (l + 16)),
      |prob (fun k => Game.play S false k (focus (hybrid S (randomAead l) h.1 ks Ts) right h A []) [] = true) -
        prob (fun t => Game.play (randomAead l) false t (focus (hybrid S (randomAead l) h.1 ks Ts) right h A []) [] = true)| ≤ B) :
    |prob (fun ks : Fin u → K => play S false ks A [] = true) - prob (fun ks : Fin u → K => play S true ks A [] = true)| ≤ 2 * u * B := by
  have h1 := abs_le.mp (hybrids S (randomAead l) false A B (hB false))
  have h2 := abs_le.mp (hybrids S (randomAead l) true A B (hB true))
  have h3 := ideal_same (l := l) A []
  rw [abs_le]
  constructor <;> linarith [h1.1, h1.2, h2.1, h2.2]

end CryptoPure.Proofs.KeyIdeal
