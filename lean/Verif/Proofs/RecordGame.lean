import Verif.Spec.RecordGame
import Verif.Spec.MultiGame
import Verif.Spec.MultiDistinguisher
import Verif.Proofs.Basic

/-! # An attack on records as an attack on the cipher with many keys -/

namespace CryptoPure.RecordGame
open Game (Scheme)

variable {K : Type} {u : Nat}

/-- The attack on the cipher that an attack on the records is: it counts the records itself, and knows without asking that the next
record in order is accepted. -/
def toMulti : Attacker u → (Fin u → List (Bytes × Bytes × Bytes)) → (Fin u → Nat) → MultiGame.Adversary u
  | .stop g, _, _ => .stop g
  | .send l data msg msg' next, recs, cnt =>
    if msg.length ≠ msg'.length ∨ 2 ^ 96 ≤ (recs l).length then toMulti (next none) recs cnt
    else .encrypt l (nonce (recs l).length) data msg msg' (zeros msg.length) fun r => match r with
      | none => toMulti (next none) recs cnt
      | some (ct, t) => toMulti (next (some (ct, t))) (Function.update recs l (recs l ++ [(data, ct, t)])) cnt
  | .deliver l data ct t next, recs, cnt =>
    if 2 ^ 96 ≤ cnt l then toMulti (next none) recs cnt
    else if (recs l)[cnt l]? = some (data, ct, t) then toMulti (next (some true)) recs (Function.update cnt l (cnt l + 1))
    else .decrypt l (nonce (cnt l)) data ct t (zeros ct.length) fun r => match r with
      | none => toMulti (next none) recs cnt
      | some (_, false) => toMulti (next (some false)) recs cnt
      | some (_, true) => toMulti (next (some true)) recs (Function.update cnt l (cnt l + 1))

/-- What was encrypted into a fresh buffer is decrypted into a fresh buffer. -/
def RoundTrip (S : Scheme K) : Prop := ∀ k msg nonce data ct t, S.enc k msg nonce data (zeros msg.length) = some (ct, t) →
  S.dec k ct nonce data t (zeros ct.length) = some (msg, true)

theorem nonce_inj {i j : Nat} (hi : i < 2 ^ 96) (hj : j < 2 ^ 96) (h : nonce i = nonce j) : i = j :=
  toBE_inj (by norm_num; norm_num at hi; exact hi) (by norm_num; norm_num at hj; exact hj) h

structure Inv (S : Scheme K) (k : Fin u → K) (st : State u) (recs : Fin u → List (Bytes × Bytes × Bytes)) (cnt : Fin u → Nat)
    (log : MultiGame.Log u) : Prop where
  len : ∀ l, (recs l).length = (st.sent l).length
  le : ∀ l, (recs l).length ≤ 2 ^ 96
  cnt : ∀ l, cnt l = (st.received l).length
  log : ∀ l n d c t, (l, n, d, c, t) ∈ log ↔ ∃ i, (recs l)[i]? = some (d, c, t) ∧ n = nonce i
  rec_ : ∀ (l : Fin u) (i : Nat) d c t, (recs l)[i]? = some (d, c, t) →
    ∃ m, (st.sent l)[i]? = some (d, m) ∧ S.dec (k l) c (nonce i) d t (zeros c.length) = some (m, true)

theorem inv_start (S : Scheme K) (k : Fin u → K) : Inv S k start (fun _ => []) (fun _ => 0) [] :=
  ⟨fun _ => rfl, fun _ => by simp, fun _ => rfl, fun _ _ _ _ _ => by simp, fun _ _ _ _ _ h => by simp at h⟩

section
variable {S : Scheme K} {k : Fin u → K} {st : State u} {recs : Fin u → List (Bytes × Bytes × Bytes)} {cnt : Fin u → Nat}
  {log : MultiGame.Log u}

theorem Inv.fresh (h : Inv S k st recs cnt log) (l : Fin u) (hl : (recs l).length < 2 ^ 96) :
    (l, nonce (recs l).length) ∉ log.map (fun e => (e.1, e.2.1)) := by
  intro hm
  obtain ⟨⟨l', n, d, c, t⟩, he, e⟩ := List.mem_map.mp hm
  obtain ⟨e1, e2⟩ := Prod.mk.inj e
  change l' = l at e1
  change n = _ at e2
  subst e1
  obtain ⟨i, hi, e⟩ := (h.log _ _ _ _ _).mp he
  have hi' := (List.getElem?_eq_some_iff.mp hi).1
  have := nonce_inj hl (by omega) (e2.symm.trans e)
  omega

theorem Inv.logged (h : Inv S k st recs cnt log) (l : Fin u) (j : Nat) (hj : j < 2 ^ 96) (d c t : Bytes) :
    (l, nonce j, d, c, t) ∈ log ↔ (recs l)[j]? = some (d, c, t) := by
  rw [h.log]
  constructor
  · rintro ⟨i, hi, e⟩
    have hi' := (List.getElem?_eq_some_iff.mp hi).1
    have := h.le l
    rw [nonce_inj hj (by omega) e]
    exact hi
  · exact fun hi => ⟨j, hi, rfl⟩

theorem Inv.send (h : Inv S k st recs cnt log) (hS : RoundTrip S) (l : Fin u) (hl : (recs l).length < 2 ^ 96) (data msg ct t : Bytes)
    (he : S.enc (k l) msg (nonce (recs l).length) data (zeros msg.length) = some (ct, t)) :
    Inv S k { st with sent := Function.update st.sent l (st.sent l ++ [(data, msg)]) }
      (Function.update recs l (recs l ++ [(data, ct, t)])) cnt ((l, nonce (recs l).length, data, ct, t) :: log) := by
  have hlen := h.len
  refine ⟨fun l' => ?_, fun l' => ?_, h.cnt, fun l' n d c t' => ?_, fun l' i d c t' => ?_⟩
  · by_cases e : l' = l
    · subst e; simp [hlen]
    · simp [Function.update_of_ne e, hlen]
  · by_cases e : l' = l
    · subst e; simp; omega
    · simp only [Function.update_of_ne e]; exact h.le l'
  · by_cases e : l' = l
    · subst e
      simp only [Function.update_self, List.mem_cons, Prod.mk.injEq, true_and, h.log]
      constructor
      · rintro (⟨rfl, rfl, rfl, rfl⟩ | ⟨i, hi, rfl⟩)
        · exact ⟨_, List.getElem?_concat_length, rfl⟩
        · exact ⟨i, by rw [List.getElem?_append_left (List.getElem?_eq_some_iff.mp hi).1]; exact hi, rfl⟩
      · rintro ⟨i, hi, rfl⟩
        by_cases hlt : i < (recs l').length
        · exact .inr ⟨i, by rwa [List.getElem?_append_left hlt] at hi, rfl⟩
        · have hi' := (List.getElem?_eq_some_iff.mp hi).1
          simp at hi'
          obtain rfl : i = (recs l').length := by omega
          rw [List.getElem?_concat_length] at hi
          simp only [Option.some.injEq, Prod.mk.injEq] at hi
          obtain ⟨rfl, rfl, rfl⟩ := hi
          exact .inl ⟨rfl, rfl, rfl, rfl⟩
    · simp only [Function.update_of_ne e, List.mem_cons, Prod.mk.injEq, e, false_and, false_or, h.log]
  · by_cases e : l' = l
    · subst e
      simp only [Function.update_self]
      intro hi
      by_cases hlt : i < (recs l').length
      · rw [List.getElem?_append_left hlt] at hi
        obtain ⟨m, h1, h2⟩ := h.rec_ _ _ _ _ _ hi
        exact ⟨m, by rw [List.getElem?_append_left (by rw [← hlen]; exact hlt)]; exact h1, h2⟩
      · have hi' := (List.getElem?_eq_some_iff.mp hi).1
        simp at hi'
        obtain rfl : i = (recs l').length := by omega
        rw [List.getElem?_concat_length] at hi
        simp only [Option.some.injEq, Prod.mk.injEq] at hi
        obtain ⟨rfl, rfl, rfl⟩ := hi
        exact ⟨msg, by rw [hlen, List.getElem?_concat_length], hS _ _ _ _ _ _ he⟩
    · simp only [Function.update_of_ne e]
      exact h.rec_ _ _ _ _ _

theorem Inv.receive (h : Inv S k st recs cnt log) (l : Fin u) (x : Bytes × Bytes) :
    Inv S k { st with received := Function.update st.received l (st.received l ++ [x]) } recs (Function.update cnt l (cnt l + 1)) log := by
  refine ⟨h.len, h.le, fun l' => ?_, h.log, h.rec_⟩
  by_cases e : l' = l
  · subst e; simp [h.cnt]
  · simp [Function.update_of_ne e, h.cnt]

end

/-- The attacker sees the same. -/
theorem play_toMulti (S : Scheme K) (hS : RoundTrip S) (right : Bool) (k : Fin u → K) (A : Attacker u) :
    ∀ (st : State u) recs cnt log, Inv S k st recs cnt log →
      MultiGame.play S right k (toMulti A recs cnt) log = play S right k A st := by
  induction A with
  | stop g => intros; rfl
  | send l data msg msg' next ih =>
    intro st recs cnt log h
    rw [toMulti, play]
    by_cases hm : msg.length = msg'.length
    · simp only [hm, ne_eq, not_true_eq_false, false_or, if_false, sendStep, ← h.len l]
      by_cases hl : 2 ^ 96 ≤ (recs l).length
      · rw [if_pos hl, if_pos hl]; exact ih _ _ _ _ _ h
      · rw [if_neg hl, if_neg hl, MultiGame.play, if_neg (by
          rw [not_or]; exact ⟨h.fresh l (by omega), by simp [hm]⟩)]
        have hz : zeros msg'.length = zeros (if right = true then msg' else msg).length := by cases right <;> simp [hm]
        rw [hz]
        cases he : S.enc (k l) (if right = true then msg' else msg) (nonce (recs l).length) data
            (zeros (if right = true then msg' else msg).length) with
        | none => exact ih _ _ _ _ _ h
        | some r => exact ih _ _ _ _ _ (h.send hS l (by omega) _ _ _ _ he)
    · rw [if_pos (Or.inl hm), if_pos hm]; exact ih _ _ _ _ _ h
  | deliver l data ct t next ih =>
    intro st recs cnt log h
    rw [toMulti, play]
    simp only [deliverStep, ← h.cnt l]
    by_cases hl : 2 ^ 96 ≤ cnt l
    · rw [if_pos hl, if_pos hl]; exact ih _ _ _ _ _ h
    · rw [if_neg hl, if_neg hl]
      by_cases hr : (recs l)[cnt l]? = some (data, ct, t)
      · obtain ⟨m, -, h2⟩ := h.rec_ _ _ _ _ _ hr
        rw [if_pos hr, h2]
        exact ih _ _ _ _ _ (h.receive l _)
      · rw [if_neg hr, MultiGame.play, if_neg (by rw [h.logged l _ (by omega)]; exact hr)]
        cases hd : S.dec (k l) ct (nonce (cnt l)) data t (zeros ct.length) with
        | none => exact ih _ _ _ _ _ h
        | some r =>
          obtain ⟨out, b⟩ := r
          cases b with
          | false => exact ih _ _ _ _ _ h
          | true => exact ih _ _ _ _ _ (h.receive l _)

/-- Who breaks the order of the records forges. -/
theorem forges_of_breaks (S : Scheme K) (hS : RoundTrip S) (right : Bool) (k : Fin u → K) (A : Attacker u) :
    ∀ (st : State u) recs cnt log, Inv S k st recs cnt log → st.Faithful → breaks S right k A st →
      MultiGame.forges S right k (toMulti A recs cnt) log := by
  induction A with
  | stop g => intro st recs cnt log h hf hb; exact hb hf
  | send l data msg msg' next ih =>
    intro st recs cnt log h hf hb
    rw [breaks] at hb
    replace hb := hb.resolve_left (not_not_intro hf)
    rw [toMulti]
    by_cases hm : msg.length = msg'.length
    · simp only [hm, ne_eq, not_true_eq_false, false_or, if_false, sendStep, ← h.len l] at hb ⊢
      by_cases hl : 2 ^ 96 ≤ (recs l).length
      · rw [if_pos hl] at hb ⊢; exact ih _ _ _ _ _ h hf hb
      · rw [if_neg hl] at hb ⊢
        rw [MultiGame.forges, if_neg (by rw [not_or]; exact ⟨h.fresh l (by omega), by simp [hm]⟩)]
        have hz : zeros msg'.length = zeros (if right = true then msg' else msg).length := by cases right <;> simp [hm]
        rw [hz]
        cases he : S.enc (k l) (if right = true then msg' else msg) (nonce (recs l).length) data
            (zeros (if right = true then msg' else msg).length) with
        | none => rw [he] at hb; exact ih _ _ _ _ _ h hf hb
        | some r =>
          rw [he] at hb
          refine ih _ _ _ _ _ (h.send hS l (by omega) _ _ _ _ he) (fun l' => ?_) hb
          by_cases e : l' = l
          · subst e; simp only [Function.update_self]; exact (hf l').trans (List.prefix_append _ _)
          · simp only [Function.update_of_ne e]; exact hf l'
    · rw [if_pos hm] at hb
      rw [if_pos (Or.inl hm)]; exact ih _ _ _ _ _ h hf hb
  | deliver l data ct t next ih =>
    intro st recs cnt log h hf hb
    rw [breaks] at hb
    replace hb := hb.resolve_left (not_not_intro hf)
    rw [toMulti]
    simp only [deliverStep, ← h.cnt l] at hb
    by_cases hl : 2 ^ 96 ≤ cnt l
    · rw [if_pos hl] at hb ⊢; exact ih _ _ _ _ _ h hf hb
    · rw [if_neg hl] at hb ⊢
      by_cases hr : (recs l)[cnt l]? = some (data, ct, t)
      · obtain ⟨m, h1, h2⟩ := h.rec_ _ _ _ _ _ hr
        rw [if_pos hr]
        rw [h2] at hb
        refine ih _ _ _ _ _ (h.receive l _) (fun l' => ?_) hb
        by_cases e : l' = l
        · subst e
          simp only [Function.update_self]
          obtain ⟨s, hs⟩ := hf l'
          rw [h.cnt, ← hs, List.getElem?_append_right (le_refl _), Nat.sub_self] at h1
          cases s with
          | nil => cases h1
          | cons y s =>
            simp only [List.getElem?_cons_zero, Option.some.injEq] at h1
            subst h1
            exact ⟨s, by rw [← hs, List.append_assoc]; rfl⟩
        · simp only [Function.update_of_ne e]; exact hf l'
      · rw [if_neg hr, MultiGame.forges, if_neg (by rw [h.logged l _ (by omega)]; exact hr)]
        cases hd : S.dec (k l) ct (nonce (cnt l)) data t (zeros ct.length) with
        | none => rw [hd] at hb; exact .inr (ih _ _ _ _ _ h hf hb)
        | some r =>
          obtain ⟨out, b⟩ := r
          cases b with
          | false => rw [hd] at hb; exact .inr (ih _ _ _ _ _ h hf hb)
          | true => exact .inl ⟨out, rfl⟩

/-! ## What the attack costs -/

theorem within_mono (blocks : Nat → Nat → Nat) (n : Nat) (A : MultiGame.Adversary u) :
    ∀ a b, a ≤ b → MultiGame.Within blocks n A a → MultiGame.Within blocks n A b := by
  induction A with
  | stop g => intros; trivial
  | encrypt l nonce data msg msg' buf next ih => intro a b hab h; exact ⟨h.1, fun r => ih r _ _ hab (h.2 r)⟩
  | decrypt l nonce data ct t buf next ih =>
    rintro a b hab ⟨h1, c, rfl, h2⟩
    exact ⟨h1, b - 1, by omega, fun r => ih r _ _ (by omega) (h2 r)⟩

theorem within_toMulti (blocks : Nat → Nat → Nat) (n : Nat) (A : Attacker u) :
    ∀ a recs cnt, Within blocks n A a → MultiGame.Within blocks n (toMulti A recs cnt) a := by
  induction A with
  | stop g => intros; trivial
  | send l data msg msg' next ih =>
    intro a recs cnt h
    rw [toMulti]
    split
    · exact ih _ _ _ _ (h.2 _)
    · refine ⟨h.1, fun r => ?_⟩
      match r with
      | none => exact ih _ _ _ _ (h.2 _)
      | some (ct, t) => exact ih _ _ _ _ (h.2 _)
  | deliver l data ct t next ih =>
    rintro a recs cnt ⟨h1, b, rfl, h2⟩
    rw [toMulti]
    split
    · exact within_mono _ _ _ b _ (by omega) (ih _ _ _ _ (h2 _))
    · split
      · exact within_mono _ _ _ b _ (by omega) (ih _ _ _ _ (h2 _))
      · refine ⟨h1, b, rfl, fun r => ?_⟩
        match r with
        | none => exact ih _ _ _ _ (h2 _)
        | some (_, false) => exact ih _ _ _ _ (h2 _)
        | some (_, true) => exact ih _ _ _ _ (h2 _)

theorem costs_mono (cost : Nat → Nat) (A : MultiGame.Adversary u) :
    ∀ s t, s ≤ t → MultiGame.Costs cost A s → MultiGame.Costs cost A t := by
  induction A with
  | stop g => intros; trivial
  | encrypt l nonce data msg msg' buf next ih =>
    rintro s t hst ⟨s', rfl, h⟩
    exact ⟨t - cost msg.length, by omega, fun r => ih r _ _ (by omega) (h r)⟩
  | decrypt l nonce data ct t buf next ih =>
    rintro s t hst ⟨s', rfl, h⟩
    exact ⟨t - cost ct.length, by omega, fun r => ih r _ _ (by omega) (h r)⟩

theorem costs_toMulti (cost : Nat → Nat) (A : Attacker u) :
    ∀ s recs cnt, Costs cost A s → MultiGame.Costs cost (toMulti A recs cnt) s := by
  induction A with
  | stop g => intros; trivial
  | send l data msg msg' next ih =>
    rintro s recs cnt ⟨s', rfl, h⟩
    rw [toMulti]
    split
    · exact costs_mono _ _ s' _ (by omega) (ih _ _ _ _ (h _))
    · refine ⟨s', rfl, fun r => ?_⟩
      match r with
      | none => exact ih _ _ _ _ (h _)
      | some (ct, t) => exact ih _ _ _ _ (h _)
  | deliver l data ct t next ih =>
    rintro s recs cnt ⟨s', rfl, h⟩
    rw [toMulti]
    split
    · exact costs_mono _ _ s' _ (by omega) (ih _ _ _ _ (h _))
    · split
      · exact costs_mono _ _ s' _ (by omega) (ih _ _ _ _ (h _))
      · refine ⟨s', rfl, fun r => ?_⟩
        match r with
        | none => exact ih _ _ _ _ (h _)
        | some (_, false) => exact ih _ _ _ _ (h _)
        | some (_, true) => exact ih _ _ _ _ (h _)

theorem update_le_update {f g : Fin u → Nat} (h : ∀ i, f i ≤ g i) (l : Fin u) (x y : Nat) (hxy : x ≤ y) (i : Fin u) :
    Function.update f l x i ≤ Function.update g l y i := by
  by_cases e : i = l
  · subst e; simpa using hxy
  · simpa [Function.update_of_ne e] using h i

theorem costsEach_mono (cost : Nat → Nat) (B : Nat) (A : MultiGame.Adversary u) :
    ∀ f g : Fin u → Nat, (∀ i, f i ≤ g i) → MultiGame.CostsEach cost B A g → MultiGame.CostsEach cost B A f := by
  induction A with
  | stop g => intros; trivial
  | encrypt l nonce data msg msg' buf next ih =>
    intro f g hfg h
    have := hfg l
    exact ⟨by have := h.1; omega, fun r => ih r _ _ (update_le_update hfg l _ _ (by omega)) (h.2 r)⟩
  | decrypt l nonce data ct t buf next ih =>
    intro f g hfg h
    have := hfg l
    exact ⟨by have := h.1; omega, fun r => ih r _ _ (update_le_update hfg l _ _ (by omega)) (h.2 r)⟩

theorem le_update (f : Fin u → Nat) (l : Fin u) (x : Nat) (i : Fin u) : f i ≤ Function.update f l (f l + x) i := by
  by_cases e : i = l
  · subst e; simp
  · simp [Function.update_of_ne e]

theorem costsEach_toMulti (cost : Nat → Nat) (B : Nat) (A : Attacker u) :
    ∀ used recs cnt, CostsEach cost B A used → MultiGame.CostsEach cost B (toMulti A recs cnt) used := by
  induction A with
  | stop g => intros; trivial
  | send l data msg msg' next ih =>
    rintro used recs cnt ⟨h1, h⟩
    rw [toMulti]
    split
    · exact costsEach_mono _ _ _ _ _ (le_update used l _) (ih _ _ _ _ (h _))
    · refine ⟨h1, fun r => ?_⟩
      match r with
      | none => exact ih _ _ _ _ (h _)
      | some (ct, t) => exact ih _ _ _ _ (h _)
  | deliver l data ct t next ih =>
    rintro used recs cnt ⟨h1, h⟩
    rw [toMulti]
    split
    · exact costsEach_mono _ _ _ _ _ (le_update used l _) (ih _ _ _ _ (h _))
    · split
      · exact costsEach_mono _ _ _ _ _ (le_update used l _) (ih _ _ _ _ (h _))
      · refine ⟨h1, fun r => ?_⟩
        match r with
        | none => exact ih _ _ _ _ (h _)
        | some (_, false) => exact ih _ _ _ _ (h _)
        | some (_, true) => exact ih _ _ _ _ (h _)

end CryptoPure.RecordGame
