import Verif.Spec.NetGame
import Verif.Props.Signed

/-! # C135: signed key exchanges in a network of many users -/

namespace CryptoPure.Props.Network
open CryptoPure.Model NetGame
open Game (prob prob_mono)
open Props.Ed25519 (Secret genPkH signH)
open EdWith (verifyWith)

variable {n : Nat}

theorem impersonated_some {dh : Bytes → Bytes → Option Bytes} {id : Fin n → Bytes} {sessions : List (Session n)} {bad : List (Fin n)} {s : Session n} {j : Fin n}
    (h : impersonated dh id sessions bad s = some j) : id j = s.peer ∧ j ∉ bad ∧ ∀ t ∈ sessions, ¬ Matches dh id s j t := by
  have := List.find?_some h
  simpa using this

theorem impersonated_none {dh : Bytes → Bytes → Option Bytes} {id : Fin n → Bytes} {sessions : List (Session n)} {bad : List (Fin n)} {s : Session n}
    (h : impersonated dh id sessions bad s = none) : ¬ Wrong dh id sessions bad s := by
  rintro ⟨j, hj⟩
  have := List.find?_eq_none.mp h j (List.mem_finRange j)
  exact this (decide_eq_true hj)

theorem message_inj {r r' : Bool} {a b c a' b' c' : Bytes} (ha : a.length = 32) (ha' : a'.length = 32) (hb : b.length = 32) (hb' : b'.length = 32)
    (h : message r a b c = message r' a' b' c') : r = r' ∧ a = a' ∧ b = b' ∧ c = c' := by
  unfold message at h
  obtain ⟨h1, h2⟩ := List.cons.inj h
  obtain ⟨h3, h4⟩ := List.append_inj h2 (by simp [ha, ha', hb, hb'])
  obtain ⟨h5, h6⟩ := List.append_inj h3 (by rw [ha, ha'])
  refine ⟨?_, h5, h6, h4⟩
  revert h1
  cases r <;> cases r' <;> decide

theorem message_length {r : Bool} {a b c : Bytes} (ha : a.length = 32) (hb : b.length = 32) (hc : c.length = 32) : (message r a b c).length = 97 := by
  simp [message, ha, hb, hc]

/-- All keys of a session have 32 bytes, and its public key is that of its secret key. -/
def Sized (genPk : Bytes → Option Bytes) (s : Session n) : Prop :=
  s.peer.length = 32 ∧ s.own.length = 32 ∧ (∀ x, s.got = some x → x.length = 32) ∧ genPk s.secret = some s.own

/-! ## Wrong acceptance is a forgery -/

theorem fooled_forges [NeZero n] (m : Mode) (W : World n) (hgen : ∀ sk pk, W.genPk sk = some pk → pk.length = 32)
    (hdh : ∀ a b pa pb, W.genPk a = some pa → W.genPk b = some pb → W.dh pb a ≠ none ∧ W.dh pb a = W.dh pa b)
    (hsign : ∀ i M, (W.sign i M).isSome) (hver : ∀ key M sig, W.verify key M sig = verifyWith m W.hash M sig key) (A : Attacker n)
    (sessions : List (Session n)) (bad : List (Fin n)) (log : List (Fin n × Bytes)) (hs : ∀ s ∈ sessions, Sized W.genPk s)
    (hlog : ∀ e ∈ log, ∃ t ∈ sessions, t.user = e.1 ∧ ∃ x, t.got = some x ∧ e.2 = message t.role t.own x t.peer) (h : fooled W A sessions bad) :
    MultiEdGame.wins W.hash W.secret W.sign (fun i M sig => verifyWith m W.hash M sig (W.id i)) (forger m W.genPk W.dh W.id A sessions bad) log bad := by
  induction A generalizing sessions bad log with
  | stop => exact h.elim
  | hash x next ih =>
    rw [fooled] at h
    rw [forger, MultiEdGame.wins]
    exact ih _ _ _ _ hs hlog h
  | join user role peer secret next ih =>
    rw [fooled] at h
    rw [forger]
    split
    · rw [if_pos (by assumption)] at h
      exact ih _ _ _ _ hs hlog h
    · rename_i hp
      rw [if_neg hp] at h
      cases e : W.genPk secret with
      | none => rw [e] at h; exact ih _ _ _ _ hs hlog h
      | some own =>
        rw [e] at h
        refine ih _ _ _ _ (fun s hm => ?_) (fun x hx => ?_) h
        · rcases List.mem_append.mp hm with hm | hm
          · exact hs s hm
          · rw [List.mem_singleton.mp hm]
            exact ⟨by simpa using hp, hgen _ _ e, fun _ h => (by cases h), e⟩
        · obtain ⟨t, h1, h2⟩ := hlog x hx
          exact ⟨t, List.mem_append_left _ h1, h2⟩
  | present k pk next ih =>
    rw [fooled] at h
    rw [forger]
    cases e : sessions[k]? with
    | none => rw [e] at h; exact ih _ _ _ _ hs hlog h
    | some s =>
      rw [e] at h
      dsimp only at h ⊢
      split
      · rw [if_pos (by assumption)] at h
        exact ih _ _ _ _ hs hlog h
      · rename_i hn
        rw [if_neg hn] at h
        push Not at hn
        obtain ⟨sig, hsig⟩ := Option.isSome_iff_exists.mp (hsign s.user (message s.role s.own pk s.peer))
        rw [MultiEdGame.wins]
        rw [hsig] at h ⊢
        obtain ⟨hk, he⟩ := List.getElem?_eq_some_iff.mp e
        have hsz := hs s (he ▸ List.getElem_mem hk)
        have hnone : s.got = none := by simpa using hn.1
        refine ih _ _ _ _ (fun t ht => ?_) (fun x hx => ?_) h
        · rcases List.mem_or_eq_of_mem_set ht with ht | rfl
          · exact hs t ht
          · exact ⟨hsz.1, hsz.2.1, fun x hx => by cases hx; exact hn.2, hsz.2.2.2⟩
        · rcases List.mem_cons.mp hx with rfl | hx
          · exact ⟨_, List.mem_set hk _, rfl, pk, rfl, rfl⟩
          · obtain ⟨t, h1, h2, x', h3, h4⟩ := hlog x hx
            refine ⟨t, ?_, h2, x', h3, h4⟩
            obtain ⟨i, hi, rfl⟩ := List.getElem_of_mem h1
            have hik : i ≠ k := by
              rintro rfl
              rw [he, hnone] at h3
              cases h3
            rw [List.mem_iff_getElem]
            exact ⟨i, by simpa using hi, by rw [List.getElem_set_ne (Ne.symm hik)]⟩
  | confirm k sig next ih =>
    rw [fooled] at h
    rw [forger]
    cases e : sessions[k]? with
    | none => rw [e] at h; exact ih _ _ _ _ hs hlog h
    | some s =>
      rw [e] at h
      dsimp only at h ⊢
      cases hg : s.got with
      | none => rw [hg] at h; exact ih _ _ _ _ hs hlog h
      | some pk =>
        rw [hg] at h
        dsimp only at h ⊢
        rw [MultiEdGame.wins]
        have hv := EdGame.verifyWith_congr m W.hash (fun _ => W.hash (sig.take 32 ++ s.peer ++ message (!s.role) pk s.own (W.id s.user)))
          (message (!s.role) pk s.own (W.id s.user)) sig s.peer rfl
        rw [hver, hv] at h
        split
        · rename_i hok
          rw [if_pos hok] at h
          cases hi : impersonated W.dh W.id sessions bad s with
          | none => exact ih _ _ _ _ hs hlog (h.resolve_left (impersonated_none hi))
          | some j =>
            obtain ⟨h1, h2, h3⟩ := impersonated_some hi
            refine ⟨h2, fun hmem => ?_, ?_⟩
            · obtain ⟨t, ht, h4, x, h5, h6⟩ := hlog _ hmem
              dsimp only at h4 h6
              obtain ⟨hk, he⟩ := List.getElem?_eq_some_iff.mp e
              have hsz := hs s (he ▸ List.getElem_mem hk)
              have htz := hs t ht
              obtain ⟨e1, e2, e3, e4⟩ := message_inj (hsz.2.2.1 _ hg) htz.2.1 hsz.2.1 (htz.2.2.1 _ h5) h6
              obtain ⟨h7, h8⟩ := hdh _ _ _ _ hsz.2.2.2 htz.2.2.2
              exact h3 t ht ⟨h4, e1.symm, h1, e4.symm, by rw [hg, e2], by rw [h5, e3], h7, h8⟩
            · dsimp only
              rw [h1, hv]
              exact hok
        · rw [if_neg (by assumption)] at h
          exact ih _ _ _ _ hs hlog h
  | corrupt user next ih =>
    rw [fooled] at h
    rw [forger, MultiEdGame.wins]
    exact ih _ _ _ _ hs hlog h

theorem forger_mono {N : Nat} (f : MultiEdGame.Forger n) {q q' s s' : Nat} (h : f.Within N q s) (hq : q ≤ q') (hs : s ≤ s') : f.Within N q' s' := by
  induction f generalizing q q' s s' with
  | stop i M sig => exact h
  | hash x next ih =>
    obtain ⟨h1, r, rfl, h2⟩ := h
    exact ⟨h1, q' - 1, by omega, fun y hy => ih y (h2 y hy) (by omega) hs⟩
  | sign i M next ih =>
    obtain ⟨h1, r, rfl, h2⟩ := h
    exact ⟨h1, s' - 1, by omega, fun y hy => ih y (h2 y hy) hq (by omega)⟩
  | corrupt i next ih => exact fun y hy => ih y (h y hy) hq hs

theorem forger_within [NeZero n] {N : Nat} (hN : 161 ≤ N) (m : Mode) (genPk : Bytes → Option Bytes) (hgen : ∀ sk pk, genPk sk = some pk → pk.length = 32)
    (dh : Bytes → Bytes → Option Bytes) (ids : Fin n → Bytes) (hids : ∀ i, (ids i).length = 32) (A : Attacker n) (q s : Nat) (h : A.Within N q s)
    (sessions : List (Session n)) (bad : List (Fin n)) (hs : ∀ s ∈ sessions, Sized genPk s) : (forger m genPk dh ids A sessions bad).Within N q s := by
  induction A generalizing q s sessions bad with
  | stop => rw [forger]; show 0 + 64 ≤ N; omega
  | hash x next ih =>
    obtain ⟨h1, q, rfl, h⟩ := h
    rw [forger]
    exact ⟨h1, q, rfl, fun y _ => ih _ _ _ (h _) _ _ hs⟩
  | join user role peer secret next ih =>
    rw [forger]
    split
    · exact ih _ _ _ (h _) _ _ hs
    · rename_i hp
      cases e : genPk secret with
      | none => exact ih _ _ _ (h _) _ _ hs
      | some own =>
        refine ih _ _ _ (h _) _ _ fun s hm => ?_
        rcases List.mem_append.mp hm with hm | hm
        · exact hs s hm
        · rw [List.mem_singleton.mp hm]
          exact ⟨by simpa using hp, hgen _ _ e, fun _ h => (by cases h), e⟩
  | present k pk next ih =>
    obtain ⟨s, rfl, h⟩ := h
    rw [forger]
    cases e : sessions[k]? with
    | none => exact forger_mono _ (ih _ _ _ (h _) _ _ hs) le_rfl (by omega)
    | some t =>
      dsimp only
      split
      · exact forger_mono _ (ih _ _ _ (h _) _ _ hs) le_rfl (by omega)
      · rename_i hn
        push Not at hn
        obtain ⟨hk, he⟩ := List.getElem?_eq_some_iff.mp e
        have hsz := hs t (he ▸ List.getElem_mem hk)
        refine ⟨by rw [message_length hsz.2.1 hn.2 hsz.1]; omega, s, rfl, fun y _ => ih _ _ _ (h _) _ _ fun t' ht => ?_⟩
        rcases List.mem_or_eq_of_mem_set ht with ht | rfl
        · exact hs t' ht
        · exact ⟨hsz.1, hsz.2.1, fun x hx => by cases hx; exact hn.2, hsz.2.2.2⟩
  | confirm k sig next ih =>
    obtain ⟨q, rfl, h⟩ := h
    rw [forger]
    cases e : sessions[k]? with
    | none => exact forger_mono _ (ih _ _ _ (h _) _ _ hs) (by omega) le_rfl
    | some t =>
      dsimp only
      cases hg : t.got with
      | none => exact forger_mono _ (ih _ _ _ (h _) _ _ hs) (by omega) le_rfl
      | some pk =>
        dsimp only
        obtain ⟨hk, he⟩ := List.getElem?_eq_some_iff.mp e
        have hsz := hs t (he ▸ List.getElem_mem hk)
        have hl := message_length (r := !t.role) (hsz.2.2.1 _ hg) hsz.2.1 (hids t.user)
        refine ⟨?_, q, rfl, fun y _ => ?_⟩
        · rw [List.length_append, List.length_append, hl, hsz.1, List.length_take]; omega
        · beta_reduce
          split
          · cases impersonated dh ids sessions bad t with
            | some j =>
              show _ + 64 ≤ N
              rw [hl]; omega
            | none => exact ih _ _ _ (h _) _ _ hs
          · exact ih _ _ _ (h _) _ _ hs
  | corrupt user next ih =>
    rw [forger]
    exact fun y _ => ih _ _ _ (h _) _ _ hs

/-! ## The code -/

/-- The secret signature keys of the users and the hash function. -/
abbrev Users (n N : Nat) := (Fin n → Secret) × Keyed N 64

/-- `gen_pk` of a user's signature key. -/
def idKey {N : Nat} (m : Mode) (d : Users n N) (i : Fin n) : Bytes := (genPkH m d.2.ask (d.1 i).1).getD []

/-- What the users compute when the secret signature keys are `d.1` and the hash function is `d.2`. -/
def world {N : Nat} (m : Mode) (d : Users n N) : World n where
  genPk := X25519.genPk m
  dh := X25519.dh m
  hash := d.2.ask
  id := idKey m d
  secret i := (d.1 i).1
  sign i := signH m d.2.ask (d.1 i).1
  verify key M sig := verifyWith m d.2.ask M sig key

theorem idKey_spec {N : Nat} (m : Mode) (d : Users n N) (i : Fin n) :
    genPkH m d.2.ask (d.1 i).1 = some (idKey m d i) ∧ (idKey m d i).length = 32 := by
  have e := Ed.genPkWith_spec m (ask_length d.2 (d.1 i).1)
  have e' : genPkH m d.2.ask (d.1 i).1 = some (idKey m d i) := by
    unfold idKey genPkH
    rw [e, Option.getD_some]
  refine ⟨e', ?_⟩
  unfold genPkH at e'
  rw [e] at e'
  rw [← Option.some.inj e', Ed.encode_length]

theorem genPk_length (m : Mode) (sk pk : Bytes) (h : X25519.genPk m sk = some pk) : pk.length = 32 := by
  have hl : sk.length = 32 := by
    by_contra hn
    rw [(X25519.C35_dh_panics m sk sk).2.mpr hn] at h
    cases h
  rw [(X25519.C35_dh_rfc7748 m sk sk hl hl).2] at h
  rw [← Option.some.inj h]
  simp [Spec.X25519.x25519, Spec.X25519.encodeU]

theorem genPk_some (m : Mode) (sk : Bytes) (h : sk.length = 32) : ∃ pk, X25519.genPk m sk = some pk ∧ pk.length = 32 := by
  have e := (X25519.C35_dh_rfc7748 m sk sk h h).2
  exact ⟨_, e, genPk_length m sk _ e⟩

theorem dh_same (m : Mode) (a b pa pb : Bytes) (ha : X25519.genPk m a = some pa) (hb : X25519.genPk m b = some pb) :
    X25519.dh m pb a ≠ none ∧ X25519.dh m pb a = X25519.dh m pa b := by
  have hl : ∀ {sk pk : Bytes}, X25519.genPk m sk = some pk → sk.length = 32 := fun {sk pk} h => by
    by_contra hn
    rw [(X25519.C35_dh_panics m sk sk).2.mpr hn] at h
    cases h
  obtain ⟨pa', pb', k, e1, e2, e3, e4⟩ := X25519.C37_key_agreement m a b (hl ha) (hl hb)
  rw [ha] at e1
  rw [hb] at e2
  cases e1; cases e2
  rw [e3, e4]
  exact ⟨by simp, rfl⟩

theorem world_sign {N : Nat} (m : Mode) (d : Users n N) (i : Fin n) (M : Bytes) : ((world m d).sign i M).isSome := by
  obtain ⟨sig, h, -⟩ := Props.Ed25519.signWith_some (m := m) (ask_length d.2 (d.1 i).1) (fun M => ask_length d.2 ((d.2.ask (d.1 i).1).drop 32 ++ M))
    (ask_length d.2) M
  exact Option.isSome_iff_exists.mpr ⟨sig, h⟩

/-- **Agreement in a network.** SHA-512 is replaced by a uniformly random function in the signatures, and the secret signature keys of the `n` users
are uniformly random. The attacker knows the public signature keys, calls the hash function or hands over signatures at most `q` times, and hands over public
keys at most `s` times. Let `ε` be the probability that at some time a session accepts whose peer is a user that was not taken over so far, although no
session of that user matches it. Let `l` be the chance of the extractor of C128 with the forger made of the attack: it looks for the logarithm of a random public key.
Then `(ε / n - δ)² ≤ Q (l + 2^-252)`, with `Q = n + q + 2 s` and `δ = ((s + 1) (Q + s + 1) + 1) 2^-252`, unless `ε / n < δ`. -/
theorem C135_agreement [NeZero n] (m : Mode) (N : Nat) (hN : 161 ≤ N) (A : (Fin n → Bytes) → Attacker n) (q s : Nat)
    (hA : ∀ ids, (A ids).Within N q s) (ε l δ : ℚ) (Q : Nat)
    (hε : ε = prob fun d : Users n N => fooled (world m d) (A (idKey m d)) [] [])
    (hl : l = Props.Ed25519.averageLog m fun ids => forger m (X25519.genPk m) (X25519.dh m) ids (A ids) [] []) (hQ : Q = n + (q + 2 * s))
    (hδ : δ = ((s + 1) * (Q + s + 1) + 1) / 2 ^ 252) (hge : δ ≤ ε / n) : (ε / n - δ) ^ 2 ≤ Q * (l + 1 / 2 ^ 252) := by
  have h1 : ε ≤ prob fun X : Users n N => ∃ pks : Fin n → Bytes, (∀ j, genPkH m X.2.ask (X.1 j).1 = some (pks j)) ∧
      MultiEdGame.wins X.2.ask (fun j => (X.1 j).1) (fun j => signH m X.2.ask (X.1 j).1) (fun j M sig => verifyWith m X.2.ask M sig (pks j))
        (forger m (X25519.genPk m) (X25519.dh m) pks (A pks) [] []) [] [] := by
    rw [hε]
    refine prob_mono fun d hd => ⟨idKey m d, fun j => (idKey_spec m d j).1, ?_⟩
    exact fooled_forges m (world m d) (genPk_length m) (dh_same m) (world_sign m d) (fun _ _ _ => rfl) _ [] [] [] (fun _ h => by cases h) (fun _ h => by cases h) hd
  have h2 := div_le_div_of_nonneg_right h1 (Nat.cast_nonneg n : (0 : ℚ) ≤ n)
  refine (pow_le_pow_left₀ (by linarith) (sub_le_sub_right h2 δ) 2).trans ?_
  refine Props.Ed25519.C128_new_message m N (by omega) (Nat.pos_of_ne_zero (NeZero.ne n)) (fun ids => forger m (X25519.genPk m) (X25519.dh m) ids (A ids) [] []) q s
    (fun pks hpk => ?_) _ l δ Q rfl hl hQ hδ (hge.trans h2)
  exact forger_within hN m _ (genPk_length m) _ pks hpk _ q s (hA _) [] [] fun _ h => by cases h

/-! ## When the network delivers everything -/

theorem sign_verify {N : Nat} (m : Mode) (d : Users n N) (i : Fin n) (M : Bytes) :
    verifyWith m d.2.ask M ((signH m d.2.ask (d.1 i).1 M).getD []) (idKey m d i) = some true := by
  obtain ⟨sig, e1, -⟩ := Props.Ed25519.signWith_some (m := m) (ask_length d.2 (d.1 i).1) (fun M => ask_length d.2 ((d.2.ask (d.1 i).1).drop 32 ++ M))
    (ask_length d.2) M
  have e2 : signH m d.2.ask (d.1 i).1 M = some sig := e1
  have h1 := EdGame.sign_accepts m (ask_length d.2 (d.1 i).1) _ _ (fun _ => ask_length _ _) (ask_length _) e1
  have e3 : idKey m d i = Spec.Ed25519.encode (Spec.Ed25519.smul (Ed.scalarOf (d.2.ask (d.1 i).1)) Spec.Ed25519.B) := by
    unfold idKey genPkH
    rw [Ed.genPkWith_spec m (ask_length _ _), Option.getD_some]
  unfold EdGame.accepts at h1
  rw [e2, Option.getD_some, e3, ← h1]
  exact EdGame.verifyWith_congr m _ _ M _ _ rfl

/-- Users `i` and `j` open sessions with each other, with the secret keys `a` and `b`, and everything is delivered. -/
def relay (ids : Fin n → Bytes) (i j : Fin n) (a b : Bytes) (next : Bool → Bool → Attacker n) : Attacker n :=
  .join i false (ids j) a fun pa => .join j true (ids i) b fun pb => .present 0 (pb.getD []) fun s0 => .present 1 (pa.getD []) fun s1 =>
    .confirm 0 (s1.getD []) fun r0 => .confirm 1 (s0.getD []) fun r1 => next r0 r1

/-- **When the network delivers everything, both sessions accept and match.** -/
theorem C135_honest {N : Nat} (m : Mode) (d : Users n N) (i j : Fin n) (a b : Bytes) (ha : a.length = 32) (hb : b.length = 32)
    (next : Bool → Bool → Attacker n) :
    ∃ s t : Session n, s.user = i ∧ t.user = j ∧ Matches (X25519.dh m) (idKey m d) s j t ∧ Matches (X25519.dh m) (idKey m d) t i s ∧
      (fooled (world m d) (relay (idKey m d) i j a b next) [] [] ↔
        Wrong (X25519.dh m) (idKey m d) [s, t] [] s ∨ Wrong (X25519.dh m) (idKey m d) [s, t] [] t ∨ fooled (world m d) (next true true) [s, t] []) := by
  obtain ⟨pa, pb, k, e1, e2, -, -⟩ := X25519.C37_key_agreement m a b ha hb
  have hpa := genPk_length m a pa e1
  have hpb := genPk_length m b pb e2
  have hi := (idKey_spec m d i).2
  have hj := (idKey_spec m d j).2
  obtain ⟨h1, h2⟩ := dh_same m a b pa pb e1 e2
  refine ⟨⟨i, false, idKey m d j, a, pa, some pb⟩, ⟨j, true, idKey m d i, b, pb, some pa⟩, rfl, rfl, ⟨rfl, rfl, rfl, rfl, rfl, rfl, h1, h2⟩,
    ⟨rfl, rfl, rfl, rfl, rfl, rfl, h2 ▸ h1, h2.symm⟩, ?_⟩
  have v0 := sign_verify m d j (message true pb pa (idKey m d i))
  have v1 := sign_verify m d i (message false pa pb (idKey m d j))
  unfold relay
  rw [fooled, if_neg (by simpa using hj)]
  simp only [world, e1]
  rw [fooled, if_neg (by simpa using hi)]
  simp only [e2, List.nil_append, List.cons_append, Option.getD_some]
  rw [fooled]
  simp only [List.getElem?_cons_zero, Option.isSome_none, Bool.false_eq_true, false_or, hpb, ne_eq, not_true_eq_false, if_false, List.set_cons_zero]
  rw [fooled]
  simp only [List.getElem?_cons_zero, List.getElem?_cons_succ, Option.isSome_none, Bool.false_eq_true, false_or, hpa, ne_eq, not_true_eq_false, if_false,
    List.set_cons_zero, List.set_cons_succ]
  rw [fooled]
  simp only [List.getElem?_cons_zero, Bool.not_false]
  rw [if_pos v0, fooled]
  simp only [List.getElem?_cons_zero, List.getElem?_cons_succ, Bool.not_true]
  rw [if_pos v1]

/-! ## Concrete cases -/

/-- Take over the third user, let the first open a session with it and the second one with the first, and hand the second what the first signs for the
third. -/
def misbind (ids : Fin 3 → Bytes) : Attacker 3 :=
  .corrupt 2 fun _ => .join 0 false (ids 2) (zeros 32) fun pa => .join 1 true (ids 0) (List.replicate 32 1) fun pb =>
    .present 0 (pb.getD []) fun s0 => .present 1 (pa.getD []) fun _ => .confirm 1 (s0.getD []) fun _ => .stop

theorem misbind_within (ids : Fin 3 → Bytes) : (misbind ids).Within 161 1 2 := fun _ _ _ => ⟨1, rfl, fun _ => ⟨0, rfl, fun _ => ⟨0, rfl, fun _ => trivial⟩⟩⟩

/-- If users did not check signatures, that attacker would succeed, when the signature keys differ. -/
theorem misbind_unchecked (W : World 3) (hv : ∀ key M sig, W.verify key M sig = some true) (hid : ∀ i, (W.id i).length = 32) (hne : W.id 1 ≠ W.id 2)
    (hgen : ∀ sk, sk.length = 32 → ∃ pk, W.genPk sk = some pk ∧ pk.length = 32) : fooled W (misbind W.id) [] [] := by
  obtain ⟨pa, e1, hpa⟩ := hgen (zeros 32) (by simp)
  obtain ⟨pb, e2, hpb⟩ := hgen (List.replicate 32 1) (by simp)
  unfold misbind
  rw [fooled, fooled, if_neg (by simpa using hid 2)]
  simp only [e1]
  rw [fooled, if_neg (by simpa using hid 0)]
  simp only [e2, List.nil_append, List.cons_append, Option.getD_some]
  rw [fooled]
  simp only [List.getElem?_cons_zero, Option.isSome_none, Bool.false_eq_true, false_or, hpb, ne_eq, not_true_eq_false, if_false, List.set_cons_zero]
  rw [fooled]
  simp only [List.getElem?_cons_zero, List.getElem?_cons_succ, Option.isSome_none, Bool.false_eq_true, false_or, hpa, ne_eq, not_true_eq_false, if_false,
    List.set_cons_zero, List.set_cons_succ]
  rw [fooled]
  simp only [List.getElem?_cons_zero, List.getElem?_cons_succ]
  rw [if_pos (hv _ _ _)]
  refine .inl ⟨0, rfl, by decide, fun t ht hm => ?_⟩
  simp only [List.mem_cons, List.not_mem_nil, or_false] at ht
  rcases ht with rfl | rfl
  · exact hne hm.2.2.2.1.symm
  · exact (by decide : (1 : Fin 3) ≠ 0) hm.1

example (m : Mode) (ε l δ : ℚ) (hε : ε = prob fun d : Users 3 161 => fooled (world m d) (misbind (idKey m d)) [] []) (hl : l = Props.Ed25519.averageLog m
    fun ids => forger m (X25519.genPk m) (X25519.dh m) ids (misbind ids) [] []) (hδ : δ = ((2 + 1) * (8 + 2 + 1) + 1) / 2 ^ 252) (hge : δ ≤ ε / 3) :
    (ε / 3 - δ) ^ 2 ≤ 8 * (l + 1 / 2 ^ 252) := by
  simpa using C135_agreement m 161 (by norm_num) misbind 1 2 misbind_within ε l δ 8 hε hl rfl (by simpa using hδ) (by simpa using hge)

example (m : Mode) (d : Users 3 161) := C135_honest m d 0 1 (zeros 32) (List.replicate 32 1) (by simp) (by simp) fun r0 r1 =>
  if r0 && r1 then .corrupt 0 fun _ => .stop else .stop

end CryptoPure.Props.Network
