import Verif.Props.StreamReduction
import Verif.Props.HmacMulti
import Verif.Props.ChaChaPerm
import Verif.Props.ChaCha20
import Verif.Proofs.KeySearch

/-! # C144: a raw ChaCha20 stream and HMAC make an authenticated cipher

A raw stream of the crate hides data and protects nothing else (C117). An application encrypts with a stream and then authenticates nonce, data and ciphertext with HMAC
of the crate, under an independent key. -/

namespace CryptoPure.Props
open CryptoPure.Model CryptoPure.Model.ChaCha20 Spec.Sha2 Proofs HmacTests Distinguisher
open Game hiding play forges
open Game (Adversary Scheme Log Within prob)

/-- What is authenticated: the nonce, the length of the data in 8 bytes, the data, the ciphertext. -/
def macText (nonce data ct : Bytes) : Bytes := nonce ++ toLE 8 data.length ++ data ++ ct

/-- Keys of HMAC. -/
abbrev HmacKey (kl : Nat) := {k : Bytes // k.length = kl}

/-- An application with the raw ChaCha20 stream and HMAC of the crate. The key consists of a key for HMAC and a key for ChaCha20. -/
def streamHmac (v : Variant) (m : Mode) (kl : Nat) : Scheme (HmacKey kl × ChaChaKey) where
  enc k msg nonce data buffer := do
    let s ← Stream.new k.2.1 nonce
    let (ct, _) ← s.encrypt m msg buffer
    let t ← Hmac.wrapper v.code m k.1.1 (macText nonce data ct)
    some (ct, t)
  dec k ct nonce data t buffer := do
    let s ← Stream.new k.2.1 nonce
    let ok ← Hmac.verify v.code m k.1.1 (macText nonce data ct) t
    if ok then do
      let (msg, _) ← s.decrypt m ct buffer
      some (msg, true)
    else some (buffer, false)

/-- The output of a new stream. -/
def streamOut (m : Mode) (key nonce input buffer : Bytes) : Option Bytes := do
  let s ← Stream.new key nonce
  let (out, _) ← s.process m input buffer
  some out

/-- The attacker on HMAC: it knows the key of ChaCha20, and runs the attack. -/
def macAttack (w : Nat) (m : Mode) (right : Bool) (key : Bytes) : Adversary → Log → MacGame.Attacker w Bool
  | .stop guess, _ => .stop guess
  | .encrypt nonce data msg msg' buffer next, log =>
    if nonce ∈ log.map Prod.fst ∨ msg.length ≠ msg'.length then macAttack w m right key (next none) log
    else match streamOut m key nonce (if right then msg' else msg) buffer with
      | none => macAttack w m right key (next none) log
      | some ct => .tag (macText nonce data ct) fun t => macAttack w m right key (next (some (ct, t))) ((nonce, data, ct, t) :: log)
  | .decrypt nonce data ct t buffer next, log =>
    if (nonce, data, ct, t) ∈ log then macAttack w m right key (next none) log
    else if nonce.length = 12 then .verify (macText nonce data ct) t fun ok =>
      macAttack w m right key (next (if ok then (streamOut m key nonce ct buffer).map fun out => (out, true) else some (buffer, false))) log
    else macAttack w m right key (next none) log

/-- The attacker on the raw streams: it knows the key of HMAC, runs the attack, and rejects what the attack wants to have decrypted. -/
def streamAttack (v : Variant) (m : Mode) (key : Bytes) : Adversary → Log → StreamGame.Adversary
  | .stop guess, _ => .stop guess
  | .encrypt nonce data msg msg' buffer next, log =>
    if nonce ∈ log.map Prod.fst ∨ msg.length ≠ msg'.length ∨ msg.length ≠ buffer.length then streamAttack v m key (next none) log
    else .start nonce fun
      | false => streamAttack v m key (next none) log
      | true => .send nonce msg msg' buffer fun r =>
        match r.bind fun ct => (Hmac.wrapper v.code m key (macText nonce data ct)).map fun t => (ct, t) with
        | none => streamAttack v m key (next none) log
        | some (ct, t) => streamAttack v m key (next (some (ct, t))) ((nonce, data, ct, t) :: log)
  | .decrypt nonce data ct t buffer next, log =>
    if (nonce, data, ct, t) ∈ log then streamAttack v m key (next none) log
    else streamAttack v m key (next (if nonce.length = 12 then some (buffer, false) else none)) log

/-- Data and message of a call, in bytes. -/
def callBytes (dataLen msgLen : Nat) : Nat := dataLen + msgLen

/-! ## What the calls do -/

variable {v : Variant} {m : Mode} {kl : Nat}

theorem macText_length (nonce data ct : Bytes) : (macText nonce data ct).length = nonce.length + 8 + data.length + ct.length := by
  unfold macText
  simp only [List.length_append, toLE_length]

theorem macText_inj {nonce data ct nonce' data' ct' : Bytes} (hn : nonce.length = nonce'.length) (hd : data.length < 2 ^ 64) (hd' : data'.length < 2 ^ 64)
    (h : macText nonce data ct = macText nonce' data' ct') : nonce = nonce' ∧ data = data' ∧ ct = ct' := by
  unfold macText at h
  rw [List.append_assoc, List.append_assoc, List.append_assoc, List.append_assoc] at h
  obtain ⟨h1, h2⟩ := List.append_inj h hn
  obtain ⟨h3, h4⟩ := List.append_inj h2 (by rw [toLE_length, toLE_length])
  have h5 : data.length = data'.length := toLE_inj (by omega) (by omega) h3
  obtain ⟨h6, h7⟩ := List.append_inj h4 h5
  exact ⟨h1, h6, h7⟩

theorem streamOut_eq (m : Mode) (key nonce x buffer : Bytes) (hk : key.length = 32) (hx : x.length ≤ 2 ^ 38) :
    streamOut m key nonce x buffer =
      if nonce.length = 12 ∧ x.length = buffer.length then some (xorBytes x (Proofs.ChaCha20.ks key nonce 0 x.length)) else none := by
  unfold streamOut
  by_cases hn : nonce.length = 12
  · rw [Proofs.ChaCha20.new_eq key nonce hk hn]
    unfold Stream.process
    by_cases hl : x.length = buffer.length
    · rw [if_pos ⟨hn, hl⟩, show (x.length == buffer.length) = true by simpa using hl, assert_true]
      simp only [Option.bind_eq_bind, Option.bind_some]
      rw [Proofs.ChaCha20.processLoop_ok key nonce hk hn m x 0 (Or.inr (by omega))]
      rfl
    · rw [if_neg fun h => hl h.2, show (x.length == buffer.length) = false by simpa using hl, assert_false]
      rfl
  · rw [if_neg fun h => hn h.1, (C28_new key nonce).mpr fun h => hn h.2]
    rfl

theorem streamOut_length {m : Mode} {key nonce x buffer out : Bytes} (hk : key.length = 32) (hx : x.length ≤ 2 ^ 38)
    (h : streamOut m key nonce x buffer = some out) : out.length = x.length ∧ nonce.length = 12 ∧ x.length = buffer.length := by
  rw [streamOut_eq m key nonce x buffer hk hx] at h
  split at h
  · rename_i hc
    rw [← Option.some.inj h, xorBytes_length, Proofs.ChaCha20.ks_length, Nat.min_self]
    exact ⟨rfl, hc⟩
  · cases h

theorem streamHmac_enc (k : HmacKey kl × ChaChaKey) (msg nonce data buffer : Bytes) : (streamHmac v m kl).enc k msg nonce data buffer =
    (streamOut m k.2.1 nonce msg buffer).bind fun ct => (Hmac.wrapper v.code m k.1.1 (macText nonce data ct)).map fun t => (ct, t) := by
  show (Stream.new k.2.1 nonce).bind _ = _
  unfold streamOut Stream.encrypt
  cases Stream.new k.2.1 nonce with
  | none => rfl
  | some s =>
    simp only [Option.bind_eq_bind, Option.bind_some]
    cases s.process m msg buffer with
    | none => rfl
    | some r =>
      simp only [Option.bind_some]
      cases Hmac.wrapper v.code m k.1.1 (macText nonce data r.1) <;> rfl

/-- The tag of HMAC. -/
abbrev macOf (v : Variant) (key nonce data ct : Bytes) : Bytes := Spec.hmac v.fips v.block key (macText nonce data ct)

theorem streamHmac_dec' (k : HmacKey kl × ChaChaKey) (ct nonce data t buffer : Bytes) (hn : nonce.length ≠ 12) :
    (streamHmac v m kl).dec k ct nonce data t buffer = none := by
  show (Stream.new k.2.1 nonce).bind _ = _
  rw [(C28_new k.2.1 nonce).mpr fun h => hn h.2]
  rfl

theorem streamHmac_dec (k : HmacKey kl × ChaChaKey) (hkl : kl < 2 ^ 61) (ct nonce data t buffer : Bytes) (hl : v.block + (nonce.length + 8 + data.length + ct.length) < 2 ^ 61) :
    (streamHmac v m kl).dec k ct nonce data t buffer =
      if nonce.length = 12 then
        if t = macOf v k.1.1 nonce data ct then (streamOut m k.2.1 nonce ct buffer).map fun out => (out, true) else some (buffer, false)
      else none := by
  show (Stream.new k.2.1 nonce).bind _ = _
  by_cases hn : nonce.length = 12
  · obtain ⟨s, hs⟩ : ∃ s, Stream.new k.2.1 nonce = some s := Option.ne_none_iff_exists'.mp fun h => (C28_new _ _).mp h ⟨k.2.2, hn⟩
    rw [if_pos hn, hs]
    simp only [Option.bind_eq_bind, Option.bind_some]
    rw [C08_verify_iff v m k.1.1 _ t (by rw [k.1.2]; exact hkl) (by rw [macText_length]; exact hl)]
    simp only [Option.bind_some, decide_eq_true_eq]
    by_cases ht : t = macOf v k.1.1 nonce data ct
    · rw [if_pos ht, if_pos ht]
      unfold streamOut Stream.decrypt
      rw [hs]
      simp only [Option.bind_eq_bind, Option.bind_some]
      cases s.process m ct buffer <;> rfl
    · rw [if_neg ht, if_neg ht]
  · rw [if_neg hn, (C28_new k.2.1 nonce).mpr fun h => hn h.2]
    rfl

/-! ## The two attacks -/

theorem macAttack_short (w : Nat) (m : Mode) (right : Bool) (key : Bytes) (hk : key.length = 32) (n : Nat) (hn : n ≤ 2 ^ 38) (A : Adversary) (a : Nat) (log : Log)
    (hA : Within callBytes n A a) : (macAttack w m right key A log).Short (n + 20) := by
  induction A generalizing a log with
  | stop g => trivial
  | encrypt nonce data msg msg' buffer next ih =>
    obtain ⟨h1, h2⟩ := hA
    unfold callBytes at h1
    unfold macAttack
    split
    · exact ih _ _ _ (h2 _)
    · rename_i hc
      have hl : (if right then msg' else msg).length = msg.length := by
        cases right
        · rfl
        · exact (not_not.mp fun h => hc (Or.inr h)).symm
      split
      · exact ih _ _ _ (h2 _)
      · rename_i ct hct
        obtain ⟨h3, h4, -⟩ := streamOut_length hk (by omega) hct
        refine ⟨?_, fun t => ih _ _ _ (h2 _)⟩
        rw [macText_length]
        omega
  | decrypt nonce data ct t buffer next ih =>
    obtain ⟨h1, b, rfl, h2⟩ := hA
    unfold callBytes at h1
    unfold macAttack
    split
    · exact ih _ _ _ (h2 _)
    · split
      · refine ⟨?_, fun ok => ih _ _ _ (h2 _)⟩
        rw [macText_length]
        omega
      · exact ih _ _ _ (h2 _)

theorem macAttack_uses (w : Nat) (m : Mode) (right : Bool) (key : Bytes) (n : Nat) (A : Adversary) (a q : Nat) (log : Log)
    (hA : Within callBytes n A a) (hq : Costs (fun _ => 1) A q) : (macAttack w m right key A log).Uses q a := by
  induction A generalizing a q log with
  | stop g => trivial
  | encrypt nonce data msg msg' buffer next ih =>
    obtain ⟨-, h2⟩ := hA
    obtain ⟨q', rfl, h3⟩ := hq
    unfold macAttack
    split
    · exact HmacMulti.uses_mono _ (ih _ _ _ _ (h2 _) (h3 _)) (by omega) le_rfl
    · split
      · exact HmacMulti.uses_mono _ (ih _ _ _ _ (h2 _) (h3 _)) (by omega) le_rfl
      · exact ⟨q', Nat.add_comm _ _, fun t => ih _ _ _ _ (h2 _) (h3 _)⟩
  | decrypt nonce data ct t buffer next ih =>
    obtain ⟨-, b, rfl, h2⟩ := hA
    obtain ⟨q', rfl, h3⟩ := hq
    unfold macAttack
    split
    · exact HmacMulti.uses_mono _ (ih _ _ _ _ (h2 _) (h3 _)) (by omega) (by omega)
    · split
      · exact ⟨q', Nat.add_comm _ _, b, rfl, fun ok => ih _ _ _ _ (h2 _) (h3 _)⟩
      · exact HmacMulti.uses_mono _ (ih _ _ _ _ (h2 _) (h3 _)) (by omega) (by omega)

/-- What the log holds: tags of HMAC. -/
def LogOk (v : Variant) (key : Bytes) (log : Log) : Prop :=
  ∀ e ∈ log, e.1.length = 12 ∧ e.2.1.length < 2 ^ 64 ∧ e.2.2.2 = macOf v key e.1 e.2.1 e.2.2.1

/-- The texts of the log. -/
def sentTexts (log : Log) : List Bytes := log.map fun e => macText e.1 e.2.1 e.2.2.1

theorem fresh_text {key : Bytes} {log : Log} (h : LogOk v key log) {nonce data ct t : Bytes} (hn : nonce.length = 12) (hd : data.length < 2 ^ 64)
    (ht : t = macOf v key nonce data ct) (hfresh : (nonce, data, ct, t) ∉ log) : macText nonce data ct ∉ sentTexts log := by
  intro hm
  obtain ⟨⟨n', d', c', t'⟩, he, e⟩ := List.mem_map.mp hm
  obtain ⟨h1, h2, h3⟩ := h _ he
  obtain ⟨rfl, rfl, rfl⟩ := macText_inj (h1.trans hn.symm) h2 hd e
  dsimp only at h3
  rw [ht, ← h3] at hfresh
  exact hfresh he

/-- While the attack forges no tag of HMAC, it cannot tell the application from streams with rejections, and forges nothing. -/
theorem attacks (hkl : kl < 2 ^ 61) (k : HmacKey kl × ChaChaKey) (right : Bool) (n : Nat) (hn : n ≤ 2 ^ 38) (A : Adversary) (a : Nat) (log : Log)
    (streams : List (Bytes × Nat × Stream)) (hA : Within callBytes n A a) (hlog : LogOk v k.1.1 log)
    (hs : ∀ x, x ∈ streams.map Prod.fst ↔ x ∈ log.map Prod.fst)
    (hf : ¬ MacGame.forges (crateWorld v m k.1.1) (macAttack v.width m right k.2.1 A log) (sentTexts log)) :
    Game.play (streamHmac v m kl) right k A log = StreamGame.play (chachaScheme m) right k.2.1 (streamAttack v m k.1.1 A log) streams ∧
      ¬ Game.forges (streamHmac v m kl) right k A log := by
  have hvb : v.block ≤ 128 := by cases v <;> decide
  induction A generalizing a log streams with
  | stop g => exact ⟨rfl, id⟩
  | encrypt nonce data msg msg' buffer next ih =>
    obtain ⟨h1, h2⟩ := hA
    unfold callBytes at h1
    unfold macAttack at hf
    unfold Game.play Game.forges streamAttack
    by_cases hc : nonce ∈ log.map Prod.fst ∨ msg.length ≠ msg'.length
    · rw [if_pos hc] at hf
      rw [if_pos hc, if_pos hc, if_pos (by tauto)]
      exact ih _ _ _ _ (h2 _) hlog hs hf
    · rw [if_neg hc] at hf
      rw [if_neg hc, if_neg hc, streamHmac_enc]
      obtain ⟨X, hX⟩ : ∃ X, X = if right then msg' else msg := ⟨_, rfl⟩
      have hl : X.length = msg.length := by
        rw [hX]
        cases right
        · rfl
        · exact (not_not.mp fun h => hc (Or.inr h)).symm
      rw [← hX] at hf ⊢
      have hout := streamOut_eq m k.2.1 nonce X buffer k.2.2 (by omega)
      by_cases hb : msg.length = buffer.length
      · rw [if_neg (by tauto)]
        unfold StreamGame.play
        rw [if_neg (by rw [hs]; tauto)]
        by_cases h12 : nonce.length = 12
        · obtain ⟨s, hss⟩ : ∃ s, Stream.new k.2.1 nonce = some s := Option.ne_none_iff_exists'.mp fun h => (C28_new _ _).mp h ⟨k.2.2, h12⟩
          rw [if_pos ⟨h12, by omega⟩] at hout
          obtain ⟨ct, hct⟩ : ∃ ct, ct = xorBytes X (Proofs.ChaCha20.ks k.2.1 nonce 0 X.length) := ⟨_, rfl⟩
          rw [← hct] at hout
          obtain ⟨s', hs'⟩ : ∃ s', s.process m X buffer = some (ct, s') := by
            unfold streamOut at hout
            rw [hss] at hout
            simp only [Option.bind_eq_bind, Option.bind_some] at hout
            cases hp : s.process m X buffer with
            | none => rw [hp] at hout; cases hout
            | some r =>
              rw [hp] at hout
              simp only [Option.bind_some, Option.some.injEq] at hout
              exact ⟨r.2, by rw [← hout]⟩
          have hcl := (streamOut_length k.2.2 (by omega) hout).1
          have hw : Hmac.wrapper v.code m k.1.1 (macText nonce data ct) = some (macOf v k.1.1 nonce data ct) :=
            C06_hmac_rfc2104 v m k.1.1 _ (by rw [k.1.2]; exact hkl) (by rw [macText_length]; omega)
          rw [hout] at hf ⊢
          rw [show (chachaScheme m).new k.2.1 nonce = Stream.new k.2.1 nonce from rfl, hss]
          dsimp only
          unfold StreamGame.play
          rw [show ((nonce, 0, s) :: streams).lookup nonce = some (0, s) by simp]
          dsimp only
          rw [← hX, if_neg (by rintro (h | h) <;> [exact hc (Or.inr h); omega]), show (chachaScheme m).process s = s.process m from rfl, hs']
          dsimp only [Option.bind_some]
          rw [hw]
          dsimp only [Option.map_some]
          unfold MacGame.forges at hf
          rw [show (crateWorld v m k.1.1).tag (macText nonce data ct) = some (macOf v k.1.1 nonce data ct) from hw] at hf
          refine ih _ _ _ _ (h2 _) ?_ ?_ hf
          · intro e he
            rcases List.mem_cons.mp he with rfl | he
            · exact ⟨h12, (by omega : data.length < 2 ^ 64), rfl⟩
            · exact hlog e he
          · intro x
            simp only [List.map_cons, List.mem_cons, hs x]
            tauto
        · rw [if_neg fun h => h12 h.1] at hout
          rw [hout] at hf ⊢
          rw [show (chachaScheme m).new k.2.1 nonce = Stream.new k.2.1 nonce from rfl, (C28_new k.2.1 nonce).mpr fun h => h12 h.2]
          exact ih _ _ _ _ (h2 _) hlog hs hf
      · rw [if_pos (by tauto)]
        rw [if_neg fun h => hb (by omega)] at hout
        rw [hout] at hf ⊢
        exact ih _ _ _ _ (h2 _) hlog hs hf
  | decrypt nonce data ct t buffer next ih =>
    obtain ⟨h1, b, rfl, h2⟩ := hA
    unfold callBytes at h1
    unfold macAttack at hf
    unfold Game.play Game.forges streamAttack
    by_cases hc : (nonce, data, ct, t) ∈ log
    · rw [if_pos hc] at hf
      rw [if_pos hc, if_pos hc, if_pos hc]
      exact ih _ _ _ _ (h2 _) hlog hs hf
    · rw [if_neg hc] at hf
      rw [if_neg hc, if_neg hc, if_neg hc]
      by_cases h12 : nonce.length = 12
      · rw [streamHmac_dec k hkl ct nonce data t buffer (by omega), if_pos h12, if_pos h12]
        rw [if_pos h12] at hf
        unfold MacGame.forges at hf
        have hv : (crateWorld v m k.1.1).verify (macText nonce data ct) t = some (decide (t = macOf v k.1.1 nonce data ct)) :=
          C08_verify_iff v m k.1.1 _ t (by rw [k.1.2]; exact hkl) (by rw [macText_length]; omega)
        rw [hv] at hf
        by_cases ht : t = macOf v k.1.1 nonce data ct
        · exact absurd (Or.inl ⟨fresh_text hlog h12 (by omega) ht hc, by rw [decide_eq_true ht]⟩) hf
        · rw [if_neg ht]
          have hf2 := fun h => hf (Or.inr h)
          rw [decide_eq_false ht] at hf2
          dsimp only at hf2
          rw [if_neg Bool.false_ne_true] at hf2
          obtain ⟨h3, h4⟩ := ih _ _ _ streams (h2 _) hlog hs hf2
          refine ⟨h3, ?_⟩
          rintro (⟨out, h⟩ | h)
          · cases h
          · exact h4 h
      · rw [streamHmac_dec' k ct nonce data t buffer h12, if_neg h12]
        rw [if_neg h12] at hf
        obtain ⟨h3, h4⟩ := ih _ _ _ streams (h2 _) hlog hs hf
        refine ⟨h3, ?_⟩
        rintro (⟨out, h⟩ | h)
        · cases h
        · exact h4 h

/-! ## The theorems -/

/-- **It works**: within the limits nothing panics, and decryption gives the message back, in whatever builds the two parties run. -/
theorem C144_round_trip (v : Variant) (m m' : Mode) (kl : Nat) (hkl : kl < 2 ^ 61) (k : HmacKey kl × ChaChaKey) (msg nonce data buffer buffer' : Bytes)
    (hn : nonce.length = 12) (hm : msg.length ≤ 2 ^ 38) (hd : data.length < 2 ^ 60) (hb : msg.length = buffer.length) (hb' : msg.length = buffer'.length) :
    ∃ ct t, (streamHmac v m kl).enc k msg nonce data buffer = some (ct, t) ∧ ct.length = msg.length ∧ t.length = v.size ∧
      (streamHmac v m' kl).dec k ct nonce data t buffer' = some (msg, true) := by
  have hvb : v.block ≤ 128 := by cases v <;> decide
  have ho := streamOut_eq m k.2.1 nonce msg buffer k.2.2 hm
  rw [if_pos ⟨hn, hb⟩] at ho
  obtain ⟨ct, hct⟩ : ∃ ct, ct = xorBytes msg (Proofs.ChaCha20.ks k.2.1 nonce 0 msg.length) := ⟨_, rfl⟩
  rw [← hct] at ho
  have hcl := (streamOut_length k.2.2 hm ho).1
  have hw : Hmac.wrapper v.code m k.1.1 (macText nonce data ct) = some (macOf v k.1.1 nonce data ct) :=
    C06_hmac_rfc2104 v m k.1.1 _ (by rw [k.1.2]; exact hkl) (by rw [macText_length]; omega)
  refine ⟨ct, macOf v k.1.1 nonce data ct, ?_, hcl, ?_, ?_⟩
  · rw [streamHmac_enc, ho, Option.bind_some, hw]
    rfl
  · have := hmac_length v.lawful k.1.1 (macText nonce data ct)
    rw [v.digestSize_eq, v.blockSize_eq] at this
    exact this
  · rw [streamHmac_dec k hkl ct nonce data _ buffer' (by omega), if_pos hn, if_pos rfl, streamOut_eq m' k.2.1 nonce ct buffer' k.2.2 (by omega),
      if_pos ⟨hn, by omega⟩, hcl, hct, xorBytes_cancel _ _ (by rw [Proofs.ChaCha20.ks_length])]
    rfl

/-- The advantages of the two tests of C122, for the attack on HMAC that reports a forgery. -/
noncomputable def forgingTests (v : Variant) (m : Mode) (kl : Nat) (right : Bool) (A : Adversary) (key : ChaChaKey) : ℚ :=
  keyAdvantage v kl (MacGame.forger (macAttack v.width m right key.1 A []) []) + outerAdvantage v (MacGame.forger (macAttack v.width m right key.1 A []) [])

theorem mac_forged (v : Variant) (m : Mode) (kl n : Nat) (hk : kl ≤ v.block) (hn : n ≤ 2 ^ 38) (A : Adversary) (a q : Nat) (hA : Within callBytes n A a)
    (hq : Costs (fun _ => 1) A q) (right : Bool) (δ : ℚ) (hδ0 : 0 ≤ δ)
    (hδ : ∀ M M' : Bytes, M.length ≤ n + 20 → M'.length ≤ n + 20 → M ≠ M' → innerCollision v M M' ≤ δ)
    (ε : ℚ) (hε : ∀ key, forgingTests v m kl right A key ≤ ε) :
    prob (fun k : HmacKey kl × ChaChaKey => MacGame.forges (crateWorld v m k.1.1) (macAttack v.width m right k.2.1 A []) []) ≤
      a / 256 ^ v.size + (ε + q * (q - 1) / 2 * δ) := by
  have hvb : v.block ≤ 128 := by cases v <;> decide
  refine prob_prod_le (α := HmacKey kl) (β := ChaChaKey) _ _ fun key => ?_
  have h := C122_unforgeable v m kl (n + 20) hk (by omega) (macAttack v.width m right key.1 A []) q a
    (macAttack_short v.width m right key.1 key.2 n hn A a [] hA) (macAttack_uses v.width m right key.1 n A a q [] hA hq) δ hδ0 hδ
  have h' := hε key
  unfold forgingTests at h'
  exact h.trans (by linarith)

/-- **Forging.** The two keys are independent and uniform. An adaptive attacker with `q` calls, `a` of which are decryptions, makes the application accept what it has not
sent with probability at most `a / 256 ^ size`, plus the bound of C122 for the attack on HMAC of the crate that is made of it, whatever the key of ChaCha20. -/
theorem C144_forgery (v : Variant) (m : Mode) (kl n : Nat) (hk : kl ≤ v.block) (hn : n ≤ 2 ^ 38) (A : Adversary) (a q : Nat) (hA : Within callBytes n A a)
    (hq : Costs (fun _ => 1) A q) (right : Bool) (δ : ℚ) (hδ0 : 0 ≤ δ)
    (hδ : ∀ M M' : Bytes, M.length ≤ n + 20 → M'.length ≤ n + 20 → M ≠ M' → innerCollision v M M' ≤ δ)
    (ε : ℚ) (hε : ∀ key, forgingTests v m kl right A key ≤ ε) :
    prob (fun k : HmacKey kl × ChaChaKey => Game.forges (streamHmac v m kl) right k A []) ≤ a / 256 ^ v.size + (ε + q * (q - 1) / 2 * δ) := by
  have hvb : v.block ≤ 128 := by cases v <;> decide
  refine le_trans (prob_mono fun k hf => ?_) (mac_forged v m kl n hk hn A a q hA hq right δ hδ0 hδ ε hε)
  by_contra h
  exact (attacks (by omega) k right n hn A a [] [] hA (fun e he => by cases he) (fun x => Iff.rfl) h).2 hf

/-- **Reading.** Such an attacker tells the first messages of its pairs from the second ones with at most the advantages of the two distinguishers of C131 for the attack
on raw streams that is made of it, whatever the key of HMAC, plus the two chances to forge. -/
theorem C144_confidentiality (v : Variant) (m : Mode) (kl n : Nat) (hk : kl ≤ v.block) (hn : n ≤ 2 ^ 38) (A : Adversary) (a q : Nat) (hA : Within callBytes n A a)
    (hq : Costs (fun _ => 1) A q) (δ : ℚ) (hδ0 : 0 ≤ δ)
    (hδ : ∀ M M' : Bytes, M.length ≤ n + 20 → M'.length ≤ n + 20 → M ≠ M' → innerCollision v M M' ≤ δ)
    (ε : ℚ) (hε : ∀ right key, forgingTests v m kl right A key ≤ ε) (ε' : ℚ)
    (hε' : ∀ key : HmacKey kl, chachaAdvantage (chachaFromReader false (streamAttack v m key.1 A [])) +
      chachaAdvantage (chachaFromReader true (streamAttack v m key.1 A [])) ≤ ε') :
    |prob (fun k : HmacKey kl × ChaChaKey => Game.play (streamHmac v m kl) false k A [] = true) -
      prob (fun k : HmacKey kl × ChaChaKey => Game.play (streamHmac v m kl) true k A [] = true)| ≤
      ε' + 2 * (a / 256 ^ v.size + (ε + q * (q - 1) / 2 * δ)) := by
  have hvb : v.block ≤ 128 := by cases v <;> decide
  have h1 : ∀ right, |prob (fun k : HmacKey kl × ChaChaKey => Game.play (streamHmac v m kl) right k A [] = true) -
      prob (fun k : HmacKey kl × ChaChaKey => StreamGame.play (chachaScheme m) right k.2.1 (streamAttack v m k.1.1 A []) [] = true)| ≤
      a / 256 ^ v.size + (ε + q * (q - 1) / 2 * δ) := by
    intro right
    refine le_trans (KeySearch.prob_near _ _ (fun k : HmacKey kl × ChaChaKey => MacGame.forges (crateWorld v m k.1.1) (macAttack v.width m right k.2.1 A []) []) fun k h => ?_)
      (mac_forged v m kl n hk hn A a q hA hq right δ hδ0 hδ ε (hε right))
    rw [(attacks (by omega) k right n hn A a [] [] hA (fun e he => by cases he) (fun x => Iff.rfl) h).1]
  have h2 : |prob (fun k : HmacKey kl × ChaChaKey => StreamGame.play (chachaScheme m) false k.2.1 (streamAttack v m k.1.1 A []) [] = true) -
      prob (fun k : HmacKey kl × ChaChaKey => StreamGame.play (chachaScheme m) true k.2.1 (streamAttack v m k.1.1 A []) [] = true)| ≤ ε' := by
    rw [← prob_equiv (Equiv.prodComm ChaChaKey (HmacKey kl)), ← prob_equiv (Equiv.prodComm ChaChaKey (HmacKey kl))
      (fun k : HmacKey kl × ChaChaKey => StreamGame.play (chachaScheme m) true k.2.1 (streamAttack v m k.1.1 A []) [] = true)]
    exact prob_prod_close (α := ChaChaKey) (β := HmacKey kl) _ _ _ fun key => (C131_confidentiality m (streamAttack v m key.1 A [])).trans (hε' key)
  have := abs_le.mp (h1 false)
  have := abs_le.mp (h1 true)
  have := abs_le.mp h2
  rw [abs_le]
  constructor <;> linarith

/-! ## A concrete case -/

/-- An attacker that flips bits of a ciphertext, as works against a raw stream (C117). -/
def bitFlipper : Adversary :=
  .encrypt (zeros 12) [1, 2] (zeros 16) (List.replicate 16 1) (zeros 16) fun r =>
    match r with
    | none => .stop false
    | some (ct, t) => .decrypt (zeros 12) [1, 2] ((ct.map fun x => x ^^^ 1).take 16) t (zeros 16) fun _ => .stop true

theorem bitFlipper_within : Within callBytes 18 bitFlipper 1 ∧ Costs (fun _ => 1) bitFlipper 2 := by
  refine ⟨⟨by decide, fun r => ?_⟩, ⟨1, rfl, fun r => ?_⟩⟩
  · match r with
    | none => trivial
    | some (ct, t) =>
      refine ⟨?_, 0, rfl, fun _ => trivial⟩
      unfold callBytes
      rw [List.length_take]
      simp only [List.length_cons, List.length_nil]
      omega
  · match r with
    | none => trivial
    | some (ct, t) => exact ⟨0, rfl, fun _ => trivial⟩

example (m : Mode) (ε : ℚ) (hε : ∀ key, forgingTests .sha256 m 32 true bitFlipper key ≤ ε) :
    prob (fun k : HmacKey 32 × ChaChaKey => Game.forges (streamHmac .sha256 m 32) true k bitFlipper []) ≤
      (1 : Nat) / 256 ^ 32 + (ε + (2 : Nat) * ((2 : Nat) - 1) / 2 * ((Variant.sha256.blocks 38 + 1) * 1 + 1 / 256 ^ 32)) :=
  C144_forgery .sha256 m 32 18 (by decide) (by norm_num) bitFlipper 1 2 bitFlipper_within.1 bitFlipper_within.2 true _ (by positivity)
    (C122_inner .sha256 (Or.inl rfl) 38 (by decide) 1 zero_le_one fun _ _ _ _ D _ => chainAdvantage_le_one .sha256 D) ε hε

/-- Without HMAC this attacker succeeds always: the raw stream decrypts whatever it gets. -/
example (m : Mode) (key : ChaChaKey) (ct : Bytes) (h : ct.length = 16) : (streamOut m key.1 (zeros 12) ct (zeros 16)).isSome := by
  rw [streamOut_eq m key.1 _ _ _ key.2 (by omega), if_pos (by simp [h])]
  rfl

example (m m' : Mode) (k : HmacKey 32 × ChaChaKey) : ∃ ct t, (streamHmac .sha512 m 32).enc k [1, 2, 3] (zeros 12) [4] (zeros 3) = some (ct, t) ∧ ct.length = 3 ∧ t.length = 64 ∧
    (streamHmac .sha512 m' 32).dec k ct (zeros 12) [4] t (zeros 3) = some ([1, 2, 3], true) :=
  C144_round_trip .sha512 m m' 32 (by decide) k [1, 2, 3] (zeros 12) [4] (zeros 3) (zeros 3) (by decide) (by norm_num) (by norm_num) rfl rfl

end CryptoPure.Props
