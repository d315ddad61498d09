import Verif.Spec.SivGame
import Verif.Proofs.DrawList
import Verif.Props.EncThenMac
import Verif.Props.RandomNonce
import Verif.Props.SessionKeys

/-! # C147: encryption without nonces, from HMAC and the raw ChaCha20 stream of the crate

An application that cannot keep nonces apart computes the tag of data and message with HMAC of the crate, and encrypts the message with a raw ChaCha20 stream whose nonce
consists of the first 12 bytes of the tag, under an independent key (the construction SIV of Rogaway and Shrimpton). -/

namespace CryptoPure.Props.Siv
open CryptoPure.Model CryptoPure.Model.ChaCha20 Spec.Sha2 Proofs HmacTests Distinguisher
open Game (prob prob_mono prob_equiv prob_prod_le prob_snd prob_fst)
open SivGame (Wrapped Adversary Within)

/-- What is authenticated: the length of the data in 8 bytes, the data, the message. -/
def text (data msg : Bytes) : Bytes := toLE 8 data.length ++ data ++ msg

/-- The application. The key consists of a key for HMAC and a key for ChaCha20. To open, it decrypts into a buffer of its own, and gives the result away only if the tag is
right. -/
def scheme (v : Variant) (m : Mode) (kl : Nat) : SivGame.Scheme (HmacKey kl × ChaChaKey) where
  wrap k data msg buffer := do
    let t ← Hmac.wrapper v.code m k.1.1 (text data msg)
    let s ← Stream.new k.2.1 (t.take 12)
    let (ct, _) ← s.encrypt m msg buffer
    some (t, ct)
  unwrap k data t ct buffer :=
    if t.length < 12 then some (buffer, false)
    else do
      let s ← Stream.new k.2.1 (t.take 12)
      let (msg, _) ← s.decrypt m ct buffer
      let ok ← Hmac.verify v.code m k.1.1 (text data msg) t
      some (if ok then (msg, true) else (buffer, false))

/-- The attacker on HMAC: it knows the key of ChaCha20, and runs the attack. -/
def macAttack (w : Nat) (m : Mode) (right : Bool) (key : Bytes) : Adversary → List Wrapped → MacGame.Attacker w Bool
  | .stop guess, _ => .stop guess
  | .wrap data msg msg' buffer next, log =>
    if (msg.length ≠ msg'.length ∨ ∃ e ∈ log, e.data = data ∧ (e.msg = msg ∨ e.msg' = msg')) ∨ msg.length ≠ buffer.length then macAttack w m right key (next none) log
    else .tag (text data (if right then msg' else msg)) fun t =>
      match streamOut m key (t.take 12) (if right then msg' else msg) buffer with
      | none => macAttack w m right key (next none) log
      | some ct => macAttack w m right key (next (some (t, ct))) (⟨data, msg, msg', t, ct⟩ :: log)
  | .unwrap data t ct buffer next, log =>
    if ∃ e ∈ log, e.data = data ∧ e.tag = t ∧ e.ct = ct then macAttack w m right key (next none) log
    else if t.length < 12 then macAttack w m right key (next (some (buffer, false))) log
    else match streamOut m key (t.take 12) ct buffer with
      | none => macAttack w m right key (next none) log
      | some msg => .verify (text data msg) t fun ok => macAttack w m right key (next (some (if ok then (msg, true) else (buffer, false)))) log

/-- The same, without trying to forge: it rejects what the attack wants to have opened. -/
def tagAttack (w : Nat) (m : Mode) (right : Bool) (key : Bytes) : Adversary → List Wrapped → MacGame.Attacker w Bool
  | .stop guess, _ => .stop guess
  | .wrap data msg msg' buffer next, log =>
    if (msg.length ≠ msg'.length ∨ ∃ e ∈ log, e.data = data ∧ (e.msg = msg ∨ e.msg' = msg')) ∨ msg.length ≠ buffer.length then tagAttack w m right key (next none) log
    else .tag (text data (if right then msg' else msg)) fun t =>
      match streamOut m key (t.take 12) (if right then msg' else msg) buffer with
      | none => tagAttack w m right key (next none) log
      | some ct => tagAttack w m right key (next (some (t, ct))) (⟨data, msg, msg', t, ct⟩ :: log)
  | .unwrap data t ct buffer next, log =>
    if ∃ e ∈ log, e.data = data ∧ e.tag = t ∧ e.ct = ct then tagAttack w m right key (next none) log
    else tagAttack w m right key (next (if t.length < 12 ∨ ct.length = buffer.length then some (buffer, false) else none)) log

/-- The attacker on the raw streams: it takes the tags from a list, runs the attack, and rejects what the attack wants to have opened. -/
def streamAttack : Adversary → List Wrapped → List Bytes → StreamGame.Adversary
  | .stop guess, _, _ => .stop guess
  | .wrap data msg msg' buffer next, log, tags =>
    if (msg.length ≠ msg'.length ∨ ∃ e ∈ log, e.data = data ∧ (e.msg = msg ∨ e.msg' = msg')) ∨ msg.length ≠ buffer.length then streamAttack (next none) log tags
    else match tags with
      | [] => .stop false
      | t :: tags => .start (t.take 12) fun _ => .send (t.take 12) msg msg' buffer fun
        | none => streamAttack (next none) log tags
        | some ct => streamAttack (next (some (t, ct))) (⟨data, msg, msg', t, ct⟩ :: log) tags
  | .unwrap data t ct buffer next, log, tags =>
    if ∃ e ∈ log, e.data = data ∧ e.tag = t ∧ e.ct = ct then streamAttack (next none) log tags
    else streamAttack (next (if t.length < 12 ∨ ct.length = buffer.length then some (buffer, false) else none)) log tags

/-! ## What the calls do -/

variable {v : Variant} {m : Mode} {kl : Nat}

theorem text_length (data msg : Bytes) : (text data msg).length = 8 + data.length + msg.length := by
  unfold text
  simp only [List.length_append, toLE_length]

theorem text_inj {data msg data' msg' : Bytes} (hd : data.length < 2 ^ 64) (hd' : data'.length < 2 ^ 64) (h : text data msg = text data' msg') :
    data = data' ∧ msg = msg' := by
  unfold text at h
  rw [List.append_assoc, List.append_assoc] at h
  obtain ⟨h3, h4⟩ := List.append_inj h (by rw [toLE_length, toLE_length])
  have h5 : data.length = data'.length := toLE_inj (by omega) (by omega) h3
  exact List.append_inj h4 h5

/-- The tag. -/
abbrev tagOf (v : Variant) (key data msg : Bytes) : Bytes := Spec.hmac v.fips v.block key (text data msg)

theorem tagOf_length (v : Variant) (key data msg : Bytes) : (tagOf v key data msg).length = v.size := by
  have := hmac_length v.lawful key (text data msg)
  rw [v.digestSize_eq, v.blockSize_eq] at this
  exact this

theorem size_ge (v : Variant) : 12 ≤ v.size := by cases v <;> decide

theorem wrap_eq (k : HmacKey kl × ChaChaKey) (hkl : kl < 2 ^ 61) (data msg buffer : Bytes) (hl : v.block + (8 + data.length + msg.length) < 2 ^ 61) :
    (scheme v m kl).wrap k data msg buffer = (streamOut m k.2.1 ((tagOf v k.1.1 data msg).take 12) msg buffer).map fun ct => (tagOf v k.1.1 data msg, ct) := by
  have hw : Hmac.wrapper v.code m k.1.1 (text data msg) = some (tagOf v k.1.1 data msg) :=
    C06_hmac_rfc2104 v m k.1.1 _ (by rw [k.1.2]; exact hkl) (by rw [text_length]; exact hl)
  show (Hmac.wrapper v.code m k.1.1 (text data msg)).bind _ = _
  rw [hw, Option.bind_some]
  unfold streamOut Stream.encrypt
  cases Stream.new k.2.1 ((tagOf v k.1.1 data msg).take 12) with
  | none => rfl
  | some s =>
    simp only [Option.bind_eq_bind, Option.bind_some]
    cases s.process m msg buffer <;> rfl

theorem unwrap_eq (k : HmacKey kl × ChaChaKey) (hkl : kl < 2 ^ 61) (data t ct buffer : Bytes) (hl : v.block + (8 + data.length + ct.length) < 2 ^ 61) (hc : ct.length ≤ 2 ^ 38) :
    (scheme v m kl).unwrap k data t ct buffer =
      if t.length < 12 then some (buffer, false) else (streamOut m k.2.1 (t.take 12) ct buffer).map fun msg => if t = tagOf v k.1.1 data msg then (msg, true) else (buffer, false) := by
  show (if t.length < 12 then _ else _) = _
  by_cases ht : t.length < 12
  · rw [if_pos ht, if_pos ht]
  · rw [if_neg ht, if_neg ht]
    cases ho : streamOut m k.2.1 (t.take 12) ct buffer with
    | none =>
      unfold streamOut at ho
      unfold Stream.decrypt
      cases hs : Stream.new k.2.1 (t.take 12) with
      | none => rfl
      | some s =>
        rw [hs] at ho
        simp only [Option.bind_eq_bind, Option.bind_some] at ho ⊢
        cases hp : s.process m ct buffer with
        | none => rfl
        | some r => rw [hp] at ho; cases ho
    | some msg =>
      have hlen := (streamOut_length k.2.2 hc ho).1
      unfold streamOut at ho
      unfold Stream.decrypt
      cases hs : Stream.new k.2.1 (t.take 12) with
      | none => rw [hs] at ho; cases ho
      | some s =>
        rw [hs] at ho
        simp only [Option.bind_eq_bind, Option.bind_some] at ho ⊢
        cases hp : s.process m ct buffer with
        | none => rw [hp] at ho; cases ho
        | some r =>
          rw [hp] at ho
          simp only [Option.bind_some, Option.some.injEq] at ho ⊢
          rw [ho, C08_verify_iff v m k.1.1 (text data msg) t (by rw [k.1.2]; exact hkl) (by rw [text_length]; omega)]
          simp only [Option.bind_some, decide_eq_true_eq, Option.map_some]

/-! ## The attacks -/

theorem macAttack_short (w : Nat) (m : Mode) (right : Bool) (key : Bytes) (hk : key.length = 32) (n : Nat) (hn : n ≤ 2 ^ 38) (A : Adversary) (q a : Nat) (log : List Wrapped)
    (hA : Within n A q a) : (macAttack w m right key A log).Short (n + 8) := by
  induction A generalizing q a log with
  | stop g => trivial
  | wrap data msg msg' buffer next ih =>
    obtain ⟨h1, q', rfl, h2⟩ := hA
    unfold macAttack
    split
    · exact ih _ _ _ _ (h2 _)
    · rename_i hc
      have hl : (if right then msg' else msg).length = msg.length := by
        cases right
        · rfl
        · exact (not_not.mp fun h => hc (Or.inl (Or.inl h))).symm
      refine ⟨by rw [text_length]; omega, fun t => ?_⟩
      beta_reduce
      split
      · exact ih _ _ _ _ (h2 _)
      · exact ih _ _ _ _ (h2 _)
  | unwrap data t ct buffer next ih =>
    obtain ⟨h1, q', rfl, b, rfl, h2⟩ := hA
    unfold macAttack
    split
    · exact ih _ _ _ _ (h2 _)
    · split
      · exact ih _ _ _ _ (h2 _)
      · split
        · exact ih _ _ _ _ (h2 _)
        · rename_i msg ho
          have hlen := (streamOut_length hk (by omega) ho).1
          exact ⟨by rw [text_length]; omega, fun ok => ih _ _ _ _ (h2 _)⟩

theorem macAttack_uses (w : Nat) (m : Mode) (right : Bool) (key : Bytes) (n : Nat) (A : Adversary) (q a : Nat) (log : List Wrapped)
    (hA : Within n A q a) : (macAttack w m right key A log).Uses q a := by
  induction A generalizing q a log with
  | stop g => trivial
  | wrap data msg msg' buffer next ih =>
    obtain ⟨-, q', rfl, h2⟩ := hA
    unfold macAttack
    split
    · exact HmacMulti.uses_mono _ (ih _ _ _ _ (h2 _)) (by omega) le_rfl
    · refine ⟨q', rfl, fun t => ?_⟩
      beta_reduce
      split <;> exact ih _ _ _ _ (h2 _)
  | unwrap data t ct buffer next ih =>
    obtain ⟨-, q', rfl, b, rfl, h2⟩ := hA
    unfold macAttack
    split
    · exact HmacMulti.uses_mono _ (ih _ _ _ _ (h2 _)) (by omega) (by omega)
    · split
      · exact HmacMulti.uses_mono _ (ih _ _ _ _ (h2 _)) (by omega) (by omega)
      · split
        · exact HmacMulti.uses_mono _ (ih _ _ _ _ (h2 _)) (by omega) (by omega)
        · exact ⟨q', rfl, b, rfl, fun ok => ih _ _ _ _ (h2 _)⟩

/-- The message of the side that is wrapped. -/
def side (right : Bool) (e : Wrapped) : Bytes := if right then e.msg' else e.msg

/-- The texts of the log. -/
def texts (right : Bool) (log : List Wrapped) : List Bytes := log.map fun e => text e.data (side right e)

theorem fresh_text {right : Bool} {log : List Wrapped} (hlog : ∀ e ∈ log, e.data.length < 2 ^ 64) {data msg msg' : Bytes} (hd : data.length < 2 ^ 64)
    (h : ¬ ∃ e ∈ log, e.data = data ∧ (e.msg = msg ∨ e.msg' = msg')) : text data (if right then msg' else msg) ∉ texts right log := by
  intro hm
  obtain ⟨e, he, heq⟩ := List.mem_map.mp hm
  obtain ⟨h1, h2⟩ := text_inj (hlog e he) hd heq
  refine h ⟨e, he, h1, ?_⟩
  unfold side at h2
  cases right
  · exact Or.inl h2
  · exact Or.inr h2

theorem tagAttack_fresh (w : Nat) (m : Mode) (right : Bool) (key : Bytes) (hk : key.length = 32) (n N : Nat) (hN : 12 ≤ N) (hn : n ≤ 2 ^ 38) (A : Adversary) (q a : Nat)
    (log : List Wrapped) (used : List Bytes) (hlog : ∀ e ∈ log, e.data.length < 2 ^ 64) (hu : ∀ x ∈ used, x ∈ texts right log) (hA : Within n A q a) :
    DrawList.Fresh (n + 8) N (tagAttack w m right key A log) used q := by
  induction A generalizing q a log used with
  | stop g => trivial
  | wrap data msg msg' buffer next ih =>
    obtain ⟨h1, q', rfl, h2⟩ := hA
    unfold tagAttack
    split
    · exact (ih _ _ _ _ _ hlog hu (h2 _)).mono (by omega)
    · rename_i hc
      have hl : (if right then msg' else msg).length = msg.length := by
        cases right
        · rfl
        · exact (not_not.mp fun h => hc (Or.inl (Or.inl h))).symm
      refine ⟨by rw [text_length]; omega, fun h => fresh_text hlog (by omega) (fun h => hc (Or.inl (Or.inr h))) (hu _ h), q', rfl, fun t ht => ?_⟩
      beta_reduce
      rw [streamOut_eq m key _ _ _ hk (by omega), if_pos ⟨by rw [List.length_take]; omega, by rw [hl]; exact not_not.mp fun h => hc (Or.inr h)⟩]
      dsimp only
      refine ih _ _ _ _ _ ?_ ?_ (h2 _)
      · intro e he
        rcases List.mem_cons.mp he with rfl | he
        · exact (by omega : data.length < 2 ^ 64)
        · exact hlog e he
      · intro x hx
        rcases List.mem_cons.mp hx with rfl | hx
        · exact List.mem_cons_self
        · exact List.mem_cons_of_mem _ (hu x hx)
  | unwrap data t ct buffer next ih =>
    obtain ⟨h1, q', rfl, b, rfl, h2⟩ := hA
    unfold tagAttack
    split
    · exact (ih _ _ _ _ _ hlog hu (h2 _)).mono (by omega)
    · exact (ih _ _ _ _ _ hlog hu (h2 _)).mono (by omega)

theorem tagAttack_short (w : Nat) (m : Mode) (right : Bool) (key : Bytes) (n : Nat) (A : Adversary) (q a : Nat) (log : List Wrapped)
    (hA : Within n A q a) : (tagAttack w m right key A log).Short (n + 8) ∧ (tagAttack w m right key A log).Uses q 0 := by
  induction A generalizing q a log with
  | stop g => exact ⟨trivial, trivial⟩
  | wrap data msg msg' buffer next ih =>
    obtain ⟨h1, q', rfl, h2⟩ := hA
    unfold tagAttack
    split
    · exact ⟨(ih _ _ _ _ (h2 _)).1, HmacMulti.uses_mono _ (ih _ _ _ _ (h2 _)).2 (by omega) le_rfl⟩
    · rename_i hc
      have hl : (if right then msg' else msg).length = msg.length := by
        cases right
        · rfl
        · exact (not_not.mp fun h => hc (Or.inl (Or.inl h))).symm
      refine ⟨⟨by rw [text_length]; omega, fun t => ?_⟩, q', rfl, fun t => ?_⟩
      · beta_reduce
        split <;> exact (ih _ _ _ _ (h2 _)).1
      · beta_reduce
        split <;> exact (ih _ _ _ _ (h2 _)).2
  | unwrap data t ct buffer next ih =>
    obtain ⟨h1, q', rfl, b, rfl, h2⟩ := hA
    unfold tagAttack
    split
    · exact ⟨(ih _ _ _ _ (h2 _)).1, HmacMulti.uses_mono _ (ih _ _ _ _ (h2 _)).2 (by omega) le_rfl⟩
    · exact ⟨(ih _ _ _ _ (h2 _)).1, HmacMulti.uses_mono _ (ih _ _ _ _ (h2 _)).2 (by omega) le_rfl⟩

/-- What the log holds: tags of HMAC and ciphertexts of ChaCha20. -/
def LogOk (v : Variant) (right : Bool) (key key' : Bytes) (log : List Wrapped) : Prop :=
  ∀ e ∈ log, e.data.length < 2 ^ 64 ∧ e.tag = tagOf v key e.data (side right e) ∧ e.ct = xorBytes (side right e) (Proofs.ChaCha20.ks key' (e.tag.take 12) 0 (side right e).length)

/-- While the attack forges no tag of HMAC, it cannot tell the application from one that rejects everything, and forges nothing. -/
theorem attacks (hkl : kl < 2 ^ 61) (k : HmacKey kl × ChaChaKey) (right : Bool) (n : Nat) (hn : n ≤ 2 ^ 38) (A : Adversary) (q a : Nat) (log : List Wrapped)
    (hA : Within n A q a) (hlog : LogOk v right k.1.1 k.2.1 log)
    (hf : ¬ MacGame.forges (crateWorld v m k.1.1) (macAttack v.width m right k.2.1 A log) (texts right log)) :
    some (SivGame.play (scheme v m kl) right k A log) = MacGame.play (crateWorld v m k.1.1) (tagAttack v.width m right k.2.1 A log) ∧
      ¬ SivGame.forges (scheme v m kl) right k A log := by
  have hvb : v.block ≤ 128 := by cases v <;> decide
  have hvs := size_ge v
  induction A generalizing q a log with
  | stop g => exact ⟨rfl, id⟩
  | wrap data msg msg' buffer next ih =>
    obtain ⟨h1, q', rfl, h2⟩ := hA
    unfold macAttack at hf
    unfold SivGame.play SivGame.forges tagAttack
    by_cases hc : msg.length ≠ msg'.length ∨ ∃ e ∈ log, e.data = data ∧ (e.msg = msg ∨ e.msg' = msg')
    · rw [if_pos (Or.inl hc)] at hf
      rw [if_pos hc, if_pos hc, if_pos (Or.inl hc)]
      exact ih _ _ _ _ (h2 _) hlog hf
    · rw [if_neg hc, if_neg hc]
      obtain ⟨X, hX⟩ : ∃ X, X = if right then msg' else msg := ⟨_, rfl⟩
      have hl : X.length = msg.length := by
        rw [hX]
        cases right
        · rfl
        · exact (not_not.mp fun h => hc (Or.inl h)).symm
      rw [← hX] at hf ⊢
      obtain ⟨T, hT⟩ : ∃ T, T = tagOf v k.1.1 data X := ⟨_, rfl⟩
      have hTl : T.length = v.size := by rw [hT]; exact tagOf_length _ _ _ _
      rw [wrap_eq k hkl data X buffer (by omega), ← hT]
      have ho := streamOut_eq m k.2.1 (T.take 12) X buffer k.2.2 (by omega)
      by_cases hb : msg.length = buffer.length
      · rw [if_pos ⟨by rw [List.length_take]; omega, by omega⟩] at ho
        have hnot : ¬ ((msg.length ≠ msg'.length ∨ ∃ e ∈ log, e.data = data ∧ (e.msg = msg ∨ e.msg' = msg')) ∨ msg.length ≠ buffer.length) :=
          not_or.mpr ⟨hc, not_not.mpr hb⟩
        rw [if_neg hnot] at hf ⊢
        have hw : (crateWorld v m k.1.1).tag (text data X) = some T := by
          rw [hT]
          exact C06_hmac_rfc2104 v m k.1.1 _ (by rw [k.1.2]; exact hkl) (by rw [text_length]; omega)
        unfold MacGame.forges at hf
        unfold MacGame.play
        rw [hw] at hf ⊢
        dsimp only at hf ⊢
        rw [ho] at hf ⊢
        dsimp only [Option.map_some] at hf ⊢
        have hside : ∀ ct, side right ⟨data, msg, msg', T, ct⟩ = X := fun ct => by rw [hX]; rfl
        refine ih _ _ _ _ (h2 _) ?_ ?_
        · intro e he
          rcases List.mem_cons.mp he with rfl | he
          · rw [hside]
            exact ⟨(by omega : data.length < 2 ^ 64), hT, rfl⟩
          · exact hlog e he
        · unfold texts at hf ⊢
          rw [List.map_cons, hside]
          exact hf
      · rw [if_neg fun h => hb (by omega)] at ho
        rw [if_pos (Or.inr hb)] at hf ⊢
        rw [ho]
        exact ih _ _ _ _ (h2 _) hlog hf
  | unwrap data t ct buffer next ih =>
    obtain ⟨h1, q', rfl, b, rfl, h2⟩ := hA
    unfold macAttack at hf
    unfold SivGame.play SivGame.forges tagAttack
    by_cases hc : ∃ e ∈ log, e.data = data ∧ e.tag = t ∧ e.ct = ct
    · rw [if_pos hc] at hf
      rw [if_pos hc, if_pos hc, if_pos hc]
      exact ih _ _ _ _ (h2 _) hlog hf
    · rw [if_neg hc] at hf
      rw [if_neg hc, if_neg hc, if_neg hc, unwrap_eq k hkl data t ct buffer (by omega) (by omega)]
      have none_ok : ∀ r : Option (Bytes × Bool), (¬ ∃ out, r = some (out, true)) → ¬ SivGame.forges (scheme v m kl) right k (next r) log →
          ¬ ((∃ out, r = some (out, true)) ∨ SivGame.forges (scheme v m kl) right k (next r) log) := fun r h h' => not_or.mpr ⟨h, h'⟩
      by_cases ht : t.length < 12
      · rw [if_pos ht] at hf
        rw [if_pos ht, if_pos (Or.inl ht)]
        obtain ⟨h3, h4⟩ := ih _ _ _ _ (h2 _) hlog hf
        exact ⟨h3, none_ok _ (by rintro ⟨out, h⟩; cases h) h4⟩
      · rw [if_neg ht] at hf
        rw [if_neg ht]
        have ho := streamOut_eq m k.2.1 (t.take 12) ct buffer k.2.2 (by omega)
        by_cases hb : ct.length = buffer.length
        · rw [if_pos ⟨by rw [List.length_take]; omega, hb⟩] at ho
          obtain ⟨M, hM⟩ : ∃ M, M = xorBytes ct (Proofs.ChaCha20.ks k.2.1 (t.take 12) 0 ct.length) := ⟨_, rfl⟩
          rw [← hM] at ho
          have hMl := (streamOut_length k.2.2 (by omega) ho).1
          rw [ho] at hf ⊢
          rw [if_pos (Or.inr hb), Option.map_some]
          dsimp only at hf
          unfold MacGame.forges at hf
          have hv : (crateWorld v m k.1.1).verify (text data M) t = some (decide (t = tagOf v k.1.1 data M)) :=
            C08_verify_iff v m k.1.1 _ t (by rw [k.1.2]; exact hkl) (by rw [text_length]; omega)
          rw [hv] at hf
          by_cases hta : t = tagOf v k.1.1 data M
          · refine absurd (Or.inl ⟨fun hm => ?_, by rw [decide_eq_true hta]⟩) hf
            obtain ⟨e, he, heq⟩ := List.mem_map.mp hm
            obtain ⟨g1, g2, g3⟩ := hlog e he
            obtain ⟨g4, g5⟩ := text_inj g1 (by omega) heq
            rw [g4, g5, ← hta] at g2
            refine hc ⟨e, he, g4, g2, ?_⟩
            rw [g3, g5, g2, hMl, hM, xorBytes_cancel _ _ (by rw [Proofs.ChaCha20.ks_length])]
          · rw [if_neg hta]
            have hf2 := fun h => hf (Or.inr h)
            rw [decide_eq_false hta] at hf2
            dsimp only at hf2
            rw [if_neg Bool.false_ne_true] at hf2
            obtain ⟨h3, h4⟩ := ih _ _ _ _ (h2 _) hlog hf2
            exact ⟨h3, none_ok _ (by rintro ⟨out, h⟩; cases h) h4⟩
        · rw [if_neg fun h => hb h.2] at ho
          rw [ho] at hf ⊢
          rw [if_neg (by tauto)]
          obtain ⟨h3, h4⟩ := ih _ _ _ _ (h2 _) hlog hf
          exact ⟨h3, none_ok _ (by rintro ⟨out, h⟩; cases h) h4⟩

/-- With tags from a list whose nonces are different, the attack is one on the raw streams. -/
theorem streams_ok (w : Nat) (key : ChaChaKey) (right : Bool) (n N : Nat) (hN : 12 ≤ N) (hn : n ≤ 2 ^ 38) (A : Adversary) (q a : Nat) (log : List Wrapped) (tags : List Bytes)
    (streams : List (Bytes × Nat × Stream)) (hA : Within n A q a) (hq : q ≤ tags.length) (ht : ∀ t ∈ tags, t.length = N) (hd : (tags.map (List.take 12)).Nodup)
    (hs : ∀ t ∈ tags, t.take 12 ∉ streams.map Prod.fst) :
    DrawList.playList (tagAttack w m right key.1 A log) tags = some (StreamGame.play (chachaScheme m) right key.1 (streamAttack A log tags) streams) := by
  induction A generalizing q a log tags streams with
  | stop g => 
    unfold tagAttack streamAttack StreamGame.play
    cases tags <;> rfl
  | wrap data msg msg' buffer next ih =>
    obtain ⟨h1, q', rfl, h2⟩ := hA
    unfold tagAttack streamAttack
    by_cases hc : (msg.length ≠ msg'.length ∨ ∃ e ∈ log, e.data = data ∧ (e.msg = msg ∨ e.msg' = msg')) ∨ msg.length ≠ buffer.length
    · rw [if_pos hc, if_pos hc]
      exact ih _ _ _ _ _ _ (h2 _) (by omega) ht hd hs
    · rw [if_neg hc, if_neg hc]
      obtain ⟨X, hX⟩ : ∃ X, X = if right then msg' else msg := ⟨_, rfl⟩
      have hl : X.length = msg.length := by
        rw [hX]
        cases right
        · rfl
        · exact (not_not.mp fun h => hc (Or.inl (Or.inl h))).symm
      have hb : msg.length = buffer.length := not_not.mp fun h => hc (Or.inr h)
      have hmm : msg.length = msg'.length := not_not.mp fun h => hc (Or.inl (Or.inl h))
      rw [← hX]
      cases tags with
      | nil => simp at hq
      | cons t tags =>
        have htl : t.length = N := ht t List.mem_cons_self
        have h12 : (t.take 12).length = 12 := by rw [List.length_take]; omega
        have hout := streamOut_eq m key.1 (t.take 12) X buffer key.2 (by omega)
        rw [if_pos ⟨h12, by omega⟩] at hout
        obtain ⟨ct, hct⟩ : ∃ ct, ct = xorBytes X (Proofs.ChaCha20.ks key.1 (t.take 12) 0 X.length) := ⟨_, rfl⟩
        rw [← hct] at hout
        obtain ⟨s, hss⟩ : ∃ s, Stream.new key.1 (t.take 12) = some s := Option.ne_none_iff_exists'.mp fun h => (C28_new _ _).mp h ⟨key.2, h12⟩
        obtain ⟨s', hs'⟩ : ∃ s', s.process m X buffer = some (ct, s') := by
          unfold streamOut at hout
          rw [hss] at hout
          simp only [Option.bind_eq_bind, Option.bind_some] at hout
          cases hp : s.process m X buffer with
          | none => rw [hp] at hout; cases hout
          | some r =>
            rw [hp] at hout
            simp only [Option.bind_some, Option.some.injEq] at hout
            exact ⟨r.2, by rw [← hout]⟩
        unfold DrawList.playList
        dsimp only
        rw [hout]
        dsimp only
        unfold StreamGame.play
        rw [if_neg (hs t List.mem_cons_self), show (chachaScheme m).new key.1 (t.take 12) = Stream.new key.1 (t.take 12) from rfl, hss]
        dsimp only
        unfold StreamGame.play
        rw [show ((t.take 12, 0, s) :: streams).lookup (t.take 12) = some (0, s) by simp]
        dsimp only
        rw [← hX, if_neg (by rintro (h | h) <;> [exact h hmm; omega]), show (chachaScheme m).process s = s.process m from rfl, hs']
        dsimp only
        rw [List.map_cons, List.nodup_cons] at hd
        refine ih _ _ _ _ _ _ (h2 _) (by simp at hq; omega) (fun t' h => ht t' (List.mem_cons_of_mem _ h)) hd.2 ?_
        intro t' h
        simp only [List.map_cons, List.mem_cons, not_or]
        have hne : t'.take 12 ≠ t.take 12 := fun e => hd.1 (List.mem_map.mpr ⟨t', h, e⟩)
        exact ⟨hne, hne, hs t' (List.mem_cons_of_mem _ h)⟩
  | unwrap data t ct buffer next ih =>
    obtain ⟨h1, q', rfl, b, rfl, h2⟩ := hA
    unfold tagAttack streamAttack
    split
    · exact ih _ _ _ _ _ _ (h2 _) (by omega) ht hd hs
    · exact ih _ _ _ _ _ _ (h2 _) (by omega) ht hd hs

/-! ## Probabilities -/

theorem prob_close {α α' β : Type} [Finite α] [Finite α'] [Finite β] [Nonempty β] (P : α × β → Prop) (Q : α' × β → Prop) (c : ℚ)
    (h : ∀ b, |prob (fun a => P (a, b)) - prob (fun a => Q (a, b))| ≤ c) : |prob P - prob Q| ≤ c := by
  have : Fintype β := Fintype.ofFinite β
  have hpos : (0 : ℚ) < Fintype.card β := by exact_mod_cast Fintype.card_pos
  rw [Game.prob_prod, Game.prob_prod, ← sub_div, ← Finset.sum_sub_distrib, abs_div, abs_of_pos hpos, div_le_iff₀ hpos]
  refine (Finset.abs_sum_le_sum_abs _ _).trans ((Finset.sum_le_sum fun b _ => h b).trans (le_of_eq ?_))
  rw [Finset.sum_const, Finset.card_univ, nsmul_eq_mul, mul_comm]

/-- Two of the nonces are rarely the same. -/
theorem nonces_repeat (n q : Nat) (h : 12 ≤ n) :
    prob (fun τ : Fin q → {d : Bytes // d.length = n} => ¬ ((List.ofFn fun i => (τ i).1).map (List.take 12)).Nodup) ≤ q * (q - 1) / 2 ^ 97 := by
  have h1 := prob_takes (ι := Fin q) h (fun d : Fin q → RandomNonceGame.Nonce => ¬ (List.ofFn d).Nodup)
  refine le_trans (le_of_eq ?_) (h1.le.trans (prob_repeat q))
  congr 1
  funext τ
  rw [List.map_ofFn]
  have : (List.ofFn fun i => (⟨(τ i).1.take 12, by rw [List.length_take, (τ i).2]; omega⟩ : RandomNonceGame.Nonce)).map Subtype.val =
      List.ofFn (List.take 12 ∘ fun i => (τ i).1) := by
    rw [List.map_ofFn]
    rfl
  rw [← this, List.nodup_map_iff Subtype.val_injective]

/-- The advantages of the two tests of C122, for the attack on HMAC that reports a forgery. -/
noncomputable def forgingTests (v : Variant) (m : Mode) (kl : Nat) (right : Bool) (A : Adversary) (key : ChaChaKey) : ℚ :=
  keyAdvantage v kl (MacGame.forger (macAttack v.width m right key.1 A []) []) + outerAdvantage v (MacGame.forger (macAttack v.width m right key.1 A []) [])

/-- The advantages of the two tests of C122, for the attack on HMAC that only asks for tags. -/
noncomputable def taggingTests (v : Variant) (m : Mode) (kl : Nat) (right : Bool) (A : Adversary) (key : ChaChaKey) : ℚ :=
  keyAdvantage v kl (tagAttack v.width m right key.1 A []) + outerAdvantage v (tagAttack v.width m right key.1 A [])

theorem mac_forged (v : Variant) (m : Mode) (kl n : Nat) (hk : kl ≤ v.block) (hn : n ≤ 2 ^ 38) (A : Adversary) (q a : Nat) (hA : Within n A q a)
    (right : Bool) (δ : ℚ) (hδ0 : 0 ≤ δ)
    (hδ : ∀ M M' : Bytes, M.length ≤ n + 8 → M'.length ≤ n + 8 → M ≠ M' → innerCollision v M M' ≤ δ)
    (ε : ℚ) (hε : ∀ key, forgingTests v m kl right A key ≤ ε) :
    prob (fun k : HmacKey kl × ChaChaKey => MacGame.forges (crateWorld v m k.1.1) (macAttack v.width m right k.2.1 A []) []) ≤
      a / 256 ^ v.size + (ε + q * (q - 1) / 2 * δ) := by
  have hvb : v.block ≤ 128 := by cases v <;> decide
  refine prob_prod_le (α := HmacKey kl) (β := ChaChaKey) _ _ fun key => ?_
  have h := C122_unforgeable v m kl (n + 8) hk (by omega) (macAttack v.width m right key.1 A []) q a
    (macAttack_short v.width m right key.1 key.2 n hn A q a [] hA) (macAttack_uses v.width m right key.1 n A q a [] hA) δ hδ0 hδ
  have h' := hε key
  unfold forgingTests at h'
  exact h.trans (by linarith)


/-! ## The theorems -/

/-- **It works**: within the limits nothing panics, and what is wrapped can be opened, in whatever builds the two parties run. -/
theorem C147_round_trip (v : Variant) (m m' : Mode) (kl : Nat) (hkl : kl < 2 ^ 61) (k : HmacKey kl × ChaChaKey) (data msg buffer buffer' : Bytes)
    (hm : msg.length ≤ 2 ^ 38) (hd : data.length < 2 ^ 60) (hb : msg.length = buffer.length) (hb' : msg.length = buffer'.length) :
    ∃ t ct, (scheme v m kl).wrap k data msg buffer = some (t, ct) ∧ ct.length = msg.length ∧ t.length = v.size ∧
      (scheme v m' kl).unwrap k data t ct buffer' = some (msg, true) := by
  have hvb : v.block ≤ 128 := by cases v <;> decide
  have hvs := size_ge v
  obtain ⟨T, hT⟩ : ∃ T, T = tagOf v k.1.1 data msg := ⟨_, rfl⟩
  have hTl : T.length = v.size := by rw [hT]; exact tagOf_length _ _ _ _
  have h12 : (T.take 12).length = 12 := by rw [List.length_take]; omega
  have ho := streamOut_eq m k.2.1 (T.take 12) msg buffer k.2.2 hm
  rw [if_pos ⟨h12, hb⟩] at ho
  obtain ⟨ct, hct⟩ : ∃ ct, ct = xorBytes msg (Proofs.ChaCha20.ks k.2.1 (T.take 12) 0 msg.length) := ⟨_, rfl⟩
  rw [← hct] at ho
  have hcl := (streamOut_length k.2.2 hm ho).1
  refine ⟨T, ct, ?_, hcl, hTl, ?_⟩
  · rw [wrap_eq k hkl data msg buffer (by omega), ← hT, ho]
    rfl
  · rw [unwrap_eq k hkl data T ct buffer' (by omega) (by omega), if_neg (by omega), streamOut_eq m' k.2.1 (T.take 12) ct buffer' k.2.2 (by omega),
      if_pos ⟨h12, by omega⟩, hcl, hct, xorBytes_cancel _ _ (by rw [Proofs.ChaCha20.ks_length]), Option.map_some, if_pos hT]

/-- **Forging.** The two keys are independent and uniform. An adaptive attacker with `q` calls, `a` of them to open, makes the application open what it has not wrapped with
probability at most `a / 256 ^ size`, plus the bound of C122 for the attack on HMAC of the crate that is made of it, whatever the key of ChaCha20. -/
theorem C147_forgery (v : Variant) (m : Mode) (kl n : Nat) (hk : kl ≤ v.block) (hn : n ≤ 2 ^ 38) (A : Adversary) (q a : Nat) (hA : Within n A q a)
    (right : Bool) (δ : ℚ) (hδ0 : 0 ≤ δ)
    (hδ : ∀ M M' : Bytes, M.length ≤ n + 8 → M'.length ≤ n + 8 → M ≠ M' → innerCollision v M M' ≤ δ)
    (ε : ℚ) (hε : ∀ key, forgingTests v m kl right A key ≤ ε) :
    prob (fun k : HmacKey kl × ChaChaKey => SivGame.forges (scheme v m kl) right k A []) ≤ a / 256 ^ v.size + (ε + q * (q - 1) / 2 * δ) := by
  have hvb : v.block ≤ 128 := by cases v <;> decide
  refine le_trans (prob_mono fun k hf => ?_) (mac_forged v m kl n hk hn A q a hA right δ hδ0 hδ ε hε)
  by_contra h
  exact (attacks (by omega) k right n hn A q a [] hA (fun e he => by cases he) h).2 hf

/-- **Reading.** No nonce is needed. Such an attacker tells the first messages of its pairs from the second ones, although it may use the same data, and messages that differ
in a bit, as often as it likes, with at most: the advantages of the two distinguishers of C131 for the attack on raw streams that is made of it, whatever the tags; plus,
for each side, the chance to forge, the bound of C122 for the attack that only asks for tags, and `q (q - 1) / 2 ^ 97`, the chance that two tags begin with the same 12 bytes. -/
theorem C147_confidentiality (v : Variant) (m : Mode) (kl n : Nat) (hk : kl ≤ v.block) (hn : n ≤ 2 ^ 38) (A : Adversary) (q a : Nat) (hA : Within n A q a)
    (δ : ℚ) (hδ0 : 0 ≤ δ)
    (hδ : ∀ M M' : Bytes, M.length ≤ n + 8 → M'.length ≤ n + 8 → M ≠ M' → innerCollision v M M' ≤ δ)
    (ε₁ ε₂ ε₃ : ℚ) (hε₁ : ∀ right key, forgingTests v m kl right A key ≤ ε₁) (hε₂ : ∀ right key, taggingTests v m kl right A key ≤ ε₂)
    (hε₃ : ∀ tags : List Bytes, chachaAdvantage (chachaFromReader false (streamAttack A [] tags)) +
      chachaAdvantage (chachaFromReader true (streamAttack A [] tags)) ≤ ε₃) :
    |prob (fun k : HmacKey kl × ChaChaKey => SivGame.play (scheme v m kl) false k A [] = true) -
      prob (fun k : HmacKey kl × ChaChaKey => SivGame.play (scheme v m kl) true k A [] = true)| ≤
      ε₃ + 2 * ((a / 256 ^ v.size + (ε₁ + q * (q - 1) / 2 * δ)) + (ε₂ + q * (q - 1) / 2 * δ) + q * (q - 1) / 2 ^ 97) := by
  have hvb : v.block ≤ 128 := by cases v <;> decide
  have hvs := size_ge v
  have hne : Nonempty ChaChaKey := ⟨⟨zeros 32, by simp⟩⟩
  have hne2 : Nonempty (Fin q → {d : Bytes // d.length = v.size}) := ⟨fun _ => ⟨zeros v.size, by simp⟩⟩
  have h1 : ∀ right, |prob (fun k : HmacKey kl × ChaChaKey => SivGame.play (scheme v m kl) right k A [] = true) -
      prob (fun k : HmacKey kl × ChaChaKey => MacGame.play (crateWorld v m k.1.1) (tagAttack v.width m right k.2.1 A []) = some true)| ≤
      a / 256 ^ v.size + (ε₁ + q * (q - 1) / 2 * δ) := by
    intro right
    refine le_trans (KeySearch.prob_near _ _ (fun k : HmacKey kl × ChaChaKey => MacGame.forges (crateWorld v m k.1.1) (macAttack v.width m right k.2.1 A []) []) fun k h => ?_)
      (mac_forged v m kl n hk hn A q a hA right δ hδ0 hδ ε₁ (hε₁ right))
    rw [← (attacks (by omega) k right n hn A q a [] hA (fun e he => by cases he) h).1, Option.some.injEq]
  have h2 : ∀ right, |prob (fun k : HmacKey kl × ChaChaKey => MacGame.play (crateWorld v m k.1.1) (tagAttack v.width m right k.2.1 A []) = some true) -
      prob (fun k : (Fin q → {d : Bytes // d.length = v.size}) × ChaChaKey =>
        DrawList.playList (tagAttack v.width m right k.2.1 A []) (List.ofFn fun i => (k.1 i).1) = some true)| ≤ ε₂ + q * (q - 1) / 2 * δ := by
    intro right
    refine prob_close _ _ _ fun key => ?_
    obtain ⟨hs, hu⟩ := tagAttack_short v.width m right key.1 n A q a [] hA
    have h := C122_prf v m kl (n + 8) hk (by omega) (tagAttack v.width m right key.1 A []) q 0 hs hu δ hδ0 hδ
    rw [DrawList.prob_draw v.fipsCompress _ [] q (tagAttack_fresh v.width m right key.1 key.2 n v.size hvs hn A q a [] [] (fun e he => by cases he) (fun x hx => by cases hx) hA)] at h
    have h' := hε₂ right key
    unfold taggingTests at h'
    exact h.trans (by linarith)
  have h3 : ∀ right, |prob (fun k : (Fin q → {d : Bytes // d.length = v.size}) × ChaChaKey =>
        DrawList.playList (tagAttack v.width m right k.2.1 A []) (List.ofFn fun i => (k.1 i).1) = some true) -
      prob (fun k : (Fin q → {d : Bytes // d.length = v.size}) × ChaChaKey =>
        StreamGame.play (chachaScheme m) right k.2.1 (streamAttack A [] (List.ofFn fun i => (k.1 i).1)) [] = true)| ≤ q * (q - 1) / 2 ^ 97 := by
    intro right
    refine le_trans (KeySearch.prob_near _ _ (fun k : (Fin q → {d : Bytes // d.length = v.size}) × ChaChaKey =>
      ¬ ((List.ofFn fun i => (k.1 i).1).map (List.take 12)).Nodup) fun k h => ?_) ?_
    · rw [streams_ok v.width k.2 right n v.size hvs hn A q a [] _ [] hA (by rw [List.length_ofFn]) ?_ (not_not.mp h) (fun t _ => by simp), Option.some.injEq]
      intro t ht
      obtain ⟨i, rfl⟩ := List.mem_ofFn.mp ht
      exact (k.1 i).2
    · exact (prob_fst (β := ChaChaKey) (fun τ : Fin q → {d : Bytes // d.length = v.size} => ¬ ((List.ofFn fun i => (τ i).1).map (List.take 12)).Nodup)).le.trans
        (nonces_repeat v.size q hvs)
  have h4 : |prob (fun k : (Fin q → {d : Bytes // d.length = v.size}) × ChaChaKey =>
        StreamGame.play (chachaScheme m) false k.2.1 (streamAttack A [] (List.ofFn fun i => (k.1 i).1)) [] = true) -
      prob (fun k : (Fin q → {d : Bytes // d.length = v.size}) × ChaChaKey =>
        StreamGame.play (chachaScheme m) true k.2.1 (streamAttack A [] (List.ofFn fun i => (k.1 i).1)) [] = true)| ≤ ε₃ := by
    rw [← prob_equiv (Equiv.prodComm ChaChaKey (Fin q → {d : Bytes // d.length = v.size})), ← prob_equiv (Equiv.prodComm ChaChaKey (Fin q → {d : Bytes // d.length = v.size}))
      (fun k : (Fin q → {d : Bytes // d.length = v.size}) × ChaChaKey =>
        StreamGame.play (chachaScheme m) true k.2.1 (streamAttack A [] (List.ofFn fun i => (k.1 i).1)) [] = true)]
    exact prob_prod_close (α := ChaChaKey) (β := Fin q → {d : Bytes // d.length = v.size}) _ _ _ fun τ =>
      (C131_confidentiality m (streamAttack A [] (List.ofFn fun i => (τ i).1))).trans (hε₃ _)
  have f1 := abs_le.mp (h1 false)
  have f2 := abs_le.mp (h2 false)
  have f3 := abs_le.mp (h3 false)
  have g1 := abs_le.mp (h1 true)
  have g2 := abs_le.mp (h2 true)
  have g3 := abs_le.mp (h3 true)
  have := abs_le.mp h4
  rw [abs_le]
  constructor <;> linarith [f1.1, f1.2, f2.1, f2.2, f3.1, f3.2, g1.1, g1.2, g2.1, g2.2, g3.1, g3.2]

/-- **What an eavesdropper does learn**: whether two messages with the same data are the same. The tag and the ciphertext do not depend on the buffer. -/
theorem C147_repeats (v : Variant) (m : Mode) (kl : Nat) (hkl : kl < 2 ^ 61) (k : HmacKey kl × ChaChaKey) (data msg buffer buffer' : Bytes)
    (hm : msg.length ≤ 2 ^ 38) (hd : data.length < 2 ^ 60) (hb : msg.length = buffer.length) (hb' : msg.length = buffer'.length) :
    (scheme v m kl).wrap k data msg buffer = (scheme v m kl).wrap k data msg buffer' := by
  have hvb : v.block ≤ 128 := by cases v <;> decide
  rw [wrap_eq k hkl data msg buffer (by omega), wrap_eq k hkl data msg buffer' (by omega), streamOut_eq m k.2.1 _ msg buffer k.2.2 hm,
    streamOut_eq m k.2.1 _ msg buffer' k.2.2 hm, ← hb, ← hb']

/-! ## A concrete case -/

/-- An attacker that wraps three pairs of messages with the same data, and opens what it gets with another bit. -/
def sivAttacker : Adversary :=
  .wrap [1, 2] (zeros 16) (List.replicate 16 1) (zeros 16) fun _ =>
  .wrap [1, 2] (List.replicate 16 3) (zeros 16) (zeros 16) fun r =>
  .wrap [1, 2] (List.replicate 16 4) (List.replicate 16 5) (zeros 16) fun r' =>
    match r with
    | none => .stop false
    | some (t, ct) => .unwrap [1, 2] t ((ct.map fun x => x ^^^ 1).take 16) (zeros 16) fun _ => .stop (decide (r' = r))

theorem sivAttacker_within : Within 18 sivAttacker 4 1 := by
  refine ⟨by decide, 3, rfl, fun _ => ⟨by decide, 2, rfl, fun r => ⟨by decide, 1, rfl, fun r' => ?_⟩⟩⟩
  match r with
  | none => trivial
  | some (t, ct) =>
    refine ⟨?_, 0, rfl, 0, rfl, fun _ => trivial⟩
    rw [List.length_take]
    simp only [List.length_cons, List.length_nil]
    omega

example (m : Mode) (ε₁ ε₂ ε₃ : ℚ) (hε₁ : ∀ right key, forgingTests .sha256 m 32 right sivAttacker key ≤ ε₁)
    (hε₂ : ∀ right key, taggingTests .sha256 m 32 right sivAttacker key ≤ ε₂)
    (hε₃ : ∀ tags : List Bytes, chachaAdvantage (chachaFromReader false (streamAttack sivAttacker [] tags)) +
      chachaAdvantage (chachaFromReader true (streamAttack sivAttacker [] tags)) ≤ ε₃) :
    |prob (fun k : HmacKey 32 × ChaChaKey => SivGame.play (scheme .sha256 m 32) false k sivAttacker [] = true) -
      prob (fun k : HmacKey 32 × ChaChaKey => SivGame.play (scheme .sha256 m 32) true k sivAttacker [] = true)| ≤
      ε₃ + 2 * (((1 : Nat) / 256 ^ 32 + (ε₁ + (4 : Nat) * ((4 : Nat) - 1) / 2 * ((Variant.sha256.blocks 26 + 1) * 1 + 1 / 256 ^ 32))) +
        (ε₂ + (4 : Nat) * ((4 : Nat) - 1) / 2 * ((Variant.sha256.blocks 26 + 1) * 1 + 1 / 256 ^ 32)) + (4 : Nat) * ((4 : Nat) - 1) / 2 ^ 97) :=
  C147_confidentiality .sha256 m 32 18 (by decide) (by norm_num) sivAttacker 4 1 sivAttacker_within _ (by positivity)
    (C122_inner .sha256 (Or.inl rfl) 26 (by decide) 1 zero_le_one fun _ _ _ _ D _ => chainAdvantage_le_one .sha256 D) ε₁ ε₂ ε₃ hε₁ hε₂ hε₃

example (m m' : Mode) (k : HmacKey 32 × ChaChaKey) : ∃ t ct, (scheme .sha384 m 32).wrap k [4] [1, 2, 3] (zeros 3) = some (t, ct) ∧ ct.length = 3 ∧ t.length = 48 ∧
    (scheme .sha384 m' 32).unwrap k [4] t ct (zeros 3) = some ([1, 2, 3], true) :=
  C147_round_trip .sha384 m m' 32 (by decide) k [4] [1, 2, 3] (zeros 3) (zeros 3) (by norm_num) (by norm_num) rfl rfl

end CryptoPure.Props.Siv
