import Verif.Proofs.Hash
import Verif.Model.Hkdf
import Verif.Spec.Hmac

/-! Proofs for HMAC and HKDF over any lawful hash object. -/

namespace CryptoPure.Proofs
open CryptoPure.Model CryptoPure.Model.Sha2

variable {H : HashFunction} {hash : Bytes → Bytes} {R : Bytes → H.State → Prop}

theorem keyed_first (L : Lawful H hash R) (m : Mode) (pad : U8) (key : Bytes) :
    ∀ (pre : Bytes) (s : H.State), R pre s → pre.length + key.length < 2 ^ 61 →
    ∃ s', key.foldlM (fun s byte => H.update m s [byte ^^^ pad]) s = some s' ∧
      R (pre ++ key.map (· ^^^ pad)) s' := by
  induction key with
  | nil => intro pre s hs _; exact ⟨s, rfl, by simpa using hs⟩
  | cons b key ih =>
    intro pre s hs hl
    simp only [List.length_cons] at hl
    obtain ⟨s1, h1, h2⟩ := L.update m pre s [b ^^^ pad] hs (by simp; omega)
    obtain ⟨s2, h3, h4⟩ := ih _ s1 h2 (by simp; omega)
    refine ⟨s2, ?_, by simpa using h4⟩
    rw [List.foldlM_cons, h1]; exact h3

theorem keyed_second (L : Lawful H hash R) (m : Mode) (pad : U8) (l : List Nat) :
    ∀ (pre : Bytes) (s : H.State), R pre s → pre.length + l.length < 2 ^ 61 →
    ∃ s', l.foldlM (fun s _ => H.update m s [pad]) s = some s' ∧
      R (pre ++ List.replicate l.length pad) s' := by
  induction l with
  | nil => intro pre s hs _; exact ⟨s, rfl, by simpa using hs⟩
  | cons b l ih =>
    intro pre s hs hl
    simp only [List.length_cons] at hl
    obtain ⟨s1, h1, h2⟩ := L.update m pre s [pad] hs (by simp; omega)
    obtain ⟨s2, h3, h4⟩ := ih _ s1 h2 (by simp; omega)
    refine ⟨s2, ?_, by simpa [List.replicate_succ] using h4⟩
    rw [List.foldlM_cons, h1]; exact h3

theorem keyed_spec (L : Lawful H hash R) (m : Mode) (pad : U8) (key : Bytes) (hk : key.length ≤ H.blockSize) :
    ∃ s, Hmac.keyedHashFunction H m key pad = some s ∧
      R (xorBytes (key ++ zeros (H.blockSize - key.length)) (List.replicate H.blockSize pad)) s := by
  have hb := L.blockMax
  obtain ⟨s1, h1, h2⟩ := keyed_first L m pad key [] H.default L.init (by simp; omega)
  obtain ⟨s2, h3, h4⟩ := keyed_second L m pad (List.range' key.length (H.blockSize - key.length)) _ s1 h2
    (by simp; omega)
  refine ⟨s2, ?_, ?_⟩
  · unfold Hmac.keyedHashFunction
    rw [h1]; exact h3
  · have e : xorBytes (key ++ zeros (H.blockSize - key.length)) (List.replicate H.blockSize pad)
        = [] ++ key.map (· ^^^ pad) ++
          List.replicate (List.range' key.length (H.blockSize - key.length)).length pad := by
      rw [show List.replicate H.blockSize pad = List.replicate key.length pad
        ++ List.replicate (H.blockSize - key.length) pad by
          rw [List.replicate_append_replicate]; congr 1; omega]
      rw [xorBytes_append (by simp)]
      simp only [List.nil_append, List.length_range']
      congr 1
      · clear h1 h2 h3 h4 hk
        induction key with
        | nil => rfl
        | cons a key ih => simp only [List.length_cons, List.replicate_succ, xorBytes, List.zipWith_cons_cons,
            List.map_cons] at ih ⊢; rw [ih]
      · simp [xorBytes, zeros]
    rw [e]; exact h4

/-- The two objects inside `h` have been fed the padded key, and the inner one also `msg`. -/
def HmacRel (hash : Bytes → Bytes) (R : Bytes → H.State → Prop) (key msg : Bytes) (h : Hmac.Hmac H) : Prop :=
  R (xorBytes (Spec.hmacKey hash H.blockSize key) (List.replicate H.blockSize 0x36) ++ msg) h.inner ∧
  R (xorBytes (Spec.hmacKey hash H.blockSize key) (List.replicate H.blockSize 0x5c)) h.outer

theorem hmacKey_length (L : Lawful H hash R) (key : Bytes) :
    (Spec.hmacKey hash H.blockSize key).length = H.blockSize := by
  have h1 := L.hashLen key
  have h2 := L.digestBlock
  unfold Spec.hmacKey
  simp only [List.length_append, zeros_length]
  split <;> omega

theorem hmac_new_spec (L : Lawful H hash R) (m : Mode) (key : Bytes) (hk : key.length < 2 ^ 61) :
    ∃ h, Hmac.new H m key = some h ∧ HmacRel hash R key [] h := by
  have hb := L.blockMax
  have hdb := L.digestBlock
  have main : ∀ k : Bytes, k.length ≤ H.blockSize → Spec.hmacKey hash H.blockSize key
      = k ++ zeros (H.blockSize - k.length) →
      ∃ h, (do
        let i ← Hmac.keyedHashFunction H m k 0x36
        let o ← Hmac.keyedHashFunction H m k 0x5c
        some ({ inner := i, outer := o } : Hmac.Hmac H)) = some h ∧ HmacRel hash R key [] h := by
    intro k hkl he
    obtain ⟨si, h1, h2⟩ := keyed_spec L m 0x36 k hkl
    obtain ⟨so, h3, h4⟩ := keyed_spec L m 0x5c k hkl
    refine ⟨⟨si, so⟩, by rw [h1, h3]; rfl, ?_, ?_⟩
    · rw [he, List.append_nil]; exact h2
    · rw [he]; exact h4
  unfold Hmac.new
  by_cases hlong : key.length > H.blockSize
  · obtain ⟨s, h1, h2⟩ := L.update m [] H.default key L.init (by simpa using hk)
    rw [if_pos hlong, h1]
    simp only [Option.bind_eq_bind, Option.bind_some]
    rw [show decide (H.digestSize ≤ maxDigestSize) = true by simpa using L.digestMax]
    simp only [assert_true, Option.bind_some]
    rw [L.finish m key s _ (by simpa using h2) hk (by simp)]
    simp only [Option.bind_some]
    apply main (hash key)
    · rw [L.hashLen]; exact hdb
    · simp [Spec.hmacKey, hlong]
  · rw [if_neg hlong]
    simp only [Option.bind_eq_bind, Option.bind_some]
    apply main key (by omega)
    simp [Spec.hmacKey, hlong]

theorem hmac_update_spec (L : Lawful H hash R) (m : Mode) (key msg x : Bytes) (h : Hmac.Hmac H)
    (hh : HmacRel hash R key msg h) (hl : H.blockSize + (msg ++ x).length < 2 ^ 61) :
    ∃ h', Hmac.update m h x = some h' ∧ HmacRel hash R key (msg ++ x) h' := by
  obtain ⟨s, h1, h2⟩ := L.update m _ h.inner x hh.1 (by
    rw [List.append_assoc, List.length_append, xorBytes_length, hmacKey_length L, List.length_replicate]
    omega)
  refine ⟨{ h with inner := s }, by simp [Hmac.update, h1], ?_, hh.2⟩
  rw [← List.append_assoc]; exact h2

theorem hmac_updates_spec (L : Lawful H hash R) (m : Mode) (key : Bytes) (parts : List Bytes) :
    ∀ (msg : Bytes) (h : Hmac.Hmac H), HmacRel hash R key msg h →
    H.blockSize + (msg ++ parts.flatten).length < 2 ^ 61 →
    ∃ h', parts.foldlM (Hmac.update m) h = some h' ∧ HmacRel hash R key (msg ++ parts.flatten) h' := by
  induction parts with
  | nil => intro msg h hh _; exact ⟨h, rfl, by simpa using hh⟩
  | cons p ps ih =>
    intro msg h hh hl
    simp only [List.flatten_cons, List.length_append] at hl
    obtain ⟨h1, e1, r1⟩ := hmac_update_spec L m key msg p h hh (by simp only [List.length_append]; omega)
    obtain ⟨h2, e2, r2⟩ := ih _ h1 r1 (by simp only [List.length_append]; omega)
    refine ⟨h2, ?_, by simpa using r2⟩
    rw [List.foldlM_cons, e1]; exact e2

theorem hmac_writeTag_spec (L : Lawful H hash R) (m : Mode) (key msg out : Bytes) (h : Hmac.Hmac H)
    (hh : HmacRel hash R key msg h) (hl : H.blockSize + msg.length < 2 ^ 61)
    (ho : out.length = H.digestSize) :
    Hmac.writeTag m h out = some (Spec.hmac hash H.blockSize key msg) := by
  have hb := L.blockMax
  have hdb := L.digestBlock
  unfold Hmac.writeTag
  rw [ho]
  simp only [beq_self_eq_true, assert_true, Option.bind_eq_bind, Option.bind_some]
  rw [L.finish m _ h.inner out hh.1 (by
    rw [List.length_append, xorBytes_length, hmacKey_length L, List.length_replicate]; omega) ho]
  simp only [Option.bind_some]
  obtain ⟨s, h1, h2⟩ := L.update m _ h.outer (hash (xorBytes (Spec.hmacKey hash H.blockSize key)
    (List.replicate H.blockSize 0x36) ++ msg)) hh.2 (by
      rw [List.length_append, xorBytes_length, hmacKey_length L, List.length_replicate, L.hashLen]; omega)
  rw [h1]
  simp only [Option.bind_some]
  rw [L.finish m _ s _ h2 (by
    rw [List.length_append, xorBytes_length, hmacKey_length L, List.length_replicate, L.hashLen]; omega)
    (L.hashLen _)]
  rfl

theorem hmac_length (L : Lawful H hash R) (key msg : Bytes) :
    (Spec.hmac hash H.blockSize key msg).length = H.digestSize := L.hashLen _

theorem hmac_tag_spec (L : Lawful H hash R) (m : Mode) (key msg : Bytes) (h : Hmac.Hmac H)
    (hh : HmacRel hash R key msg h) (hl : H.blockSize + msg.length < 2 ^ 61) :
    Hmac.tag m h = some (Spec.hmac hash H.blockSize key msg) := by
  unfold Hmac.tag
  rw [show decide (H.digestSize ≤ maxDigestSize) = true by simpa using L.digestMax]
  simp only [assert_true, Option.bind_eq_bind, Option.bind_some]
  exact hmac_writeTag_spec L m key msg _ h hh hl (by simp)

theorem hmac_wrapper_spec (L : Lawful H hash R) (m : Mode) (key msg : Bytes) (hk : key.length < 2 ^ 61)
    (hl : H.blockSize + msg.length < 2 ^ 61) :
    Hmac.wrapper H m key msg = some (Spec.hmac hash H.blockSize key msg) := by
  obtain ⟨h, e1, r1⟩ := hmac_new_spec L m key hk
  obtain ⟨h2, e2, r2⟩ := hmac_update_spec L m key [] msg h r1 (by simpa using hl)
  unfold Hmac.wrapper
  rw [e1]; simp only [Option.bind_eq_bind, Option.bind_some]
  rw [e2]; simp only [Option.bind_some]
  exact hmac_writeTag_spec L m key msg _ h2 r2 hl (by simp)

theorem hmac_verify_spec (L : Lawful H hash R) (m : Mode) (key msg tag : Bytes) (hk : key.length < 2 ^ 61)
    (hl : H.blockSize + msg.length < 2 ^ 61) :
    Hmac.verify H m key msg tag = some (decide (Spec.hmac hash H.blockSize key msg = tag)) := by
  obtain ⟨h, e1, r1⟩ := hmac_new_spec L m key hk
  obtain ⟨h2, e2, r2⟩ := hmac_update_spec L m key [] msg h r1 (by simpa using hl)
  unfold Hmac.verify
  rw [e1]; simp only [Option.bind_eq_bind, Option.bind_some]
  rw [e2]; simp only [Option.bind_some]
  rw [hmac_tag_spec L m key msg h2 r2 hl]
  exact compare_spec _ _

/-! ### HKDF -/

theorem extract_spec (L : Lawful H hash R) (m : Mode) (salt ikm prk : Bytes) (hk : salt.length < 2 ^ 61)
    (hl : H.blockSize + ikm.length < 2 ^ 61) :
    Hkdf.extract H m salt ikm prk =
      if prk.length = H.digestSize then some (Spec.hmac hash H.blockSize salt ikm) else none := by
  unfold Hkdf.extract
  by_cases hp : prk.length = H.digestSize
  · rw [if_pos hp, hp]
    obtain ⟨h, e1, r1⟩ := hmac_new_spec L m salt hk
    obtain ⟨h2, e2, r2⟩ := hmac_update_spec L m salt [] ikm h r1 (by simpa using hl)
    simp only [beq_self_eq_true, assert_true, Option.bind_eq_bind, Option.bind_some]
    rw [e1]; simp only [Option.bind_some]
    rw [e2]; simp only [Option.bind_some]
    rw [hmac_tag_spec L m salt ikm h2 r2 hl]
    simp [hmac_length L]
  · rw [if_neg hp, beq_eq_false_iff_ne.mpr (fun e => hp e.symm)]
    rfl

theorem rangeNext_ok (m : Mode) (i : Nat) (hi : i < 256) (h : m = .release ∨ i + 1 < 256) :
    rangeNext m (BitVec.ofNat 8 i) = some (BitVec.ofNat 8 i, BitVec.ofNat 8 (i + 1)) := by
  unfold rangeNext
  rcases h with rfl | h
  · simp [BitVec.ofNat_add]
  · rw [addC_ok]
    · simp [BitVec.ofNat_add]
    · simp only [BitVec.toNat_ofNat]; change i % 2 ^ 8 + 1 < 2 ^ 8; omega

theorem rangeNext_debug_max : rangeNext .debug (255 : U8) = none := by decide

variable (prk info : Bytes)

/-- Bytes produced by the loop for `rest` more bytes, the first block being `T(i)`. -/
def loopOut (hash : Bytes → Bytes) (B : Nat) (prk info : Bytes) (i rest : Nat) : Bytes :=
  ((List.range' i (256 - i)).flatMap fun j => Spec.hkdfT hash B prk info j).take rest

theorem hkdfT_length (L : Lawful H hash R) (i : Nat) (hi : 0 < i) :
    (Spec.hkdfT hash H.blockSize prk info i).length = H.digestSize := by
  cases i with
  | zero => omega
  | succ i => exact hmac_length L _ _

theorem take_flatten_chunks {n : Nat} (hn : 0 < n) (l : Bytes) (h : n ≤ l.length) :
    chunks n l = l.take n :: chunks n (l.drop n) :=
  chunks_of_ne_nil hn (by intro e; simp [e] at h; omega)

theorem expandLoop_spec (L : Lawful H hash R) (m : Mode) (hk : prk.length < 2 ^ 61)
    (hl : H.blockSize + H.digestSize + info.length + 1 < 2 ^ 61) (okm : Bytes) :
    ∀ (i : Nat) (h : Hmac.Hmac H), 1 ≤ i → i ≤ 256 → okm.length ≤ (256 - i) * H.digestSize →
    HmacRel hash R prk (Spec.hkdfT hash H.blockSize prk info (i - 1)) h →
    (m = .release ∨ okm.length < (255 - i) * H.digestSize) →
    ∃ cs, Hkdf.expandLoop H m prk info (chunks H.digestSize okm) (BitVec.ofNat 8 i) h = some cs ∧
      cs.flatten = loopOut hash H.blockSize prk info i okm.length := by
  have hd := L.digestPos
  induction hk' : okm.length using Nat.strongRecOn generalizing okm with
  | _ k ih =>
    intro i h hi1 hi2 hlen hrel hm
    have hi255 : m = .release ∨ i + 1 < 256 := by
      rcases hm with h | h
      · exact Or.inl h
      · right
        have : 0 < 255 - i := by
          rcases Nat.eq_zero_or_pos (255 - i) with h0 | h0
          · rw [h0] at h; omega
          · exact h0
        omega
    by_cases hnil : okm = []
    · subst hnil
      have hk0 : k = 0 := by simpa using hk'.symm
      have hr : ∃ p, rangeNext m (BitVec.ofNat 8 i) = some p := by
        rcases hi255 with rfl | h
        · exact ⟨_, by simp only [rangeNext, addC_release]; rfl⟩
        · exact ⟨_, rangeNext_ok m i (by omega) (Or.inr h)⟩
      obtain ⟨p, hp⟩ := hr
      refine ⟨[], by simp [Hkdf.expandLoop, hp], ?_⟩
      subst hk0; simp [loopOut]
    · have hpos : 0 < okm.length := List.length_pos_iff.mpr hnil
      have hi255' : i ≤ 255 := by
        rcases Nat.lt_or_ge 255 i with h0 | h0
        · rw [show 256 - i = 0 by omega] at hlen; omega
        · exact h0
      have hn := rangeNext_ok m i (by omega) hi255
      have hTl : (Spec.hkdfT hash H.blockSize prk info (i - 1)).length ≤ H.digestSize := by
        rcases Nat.eq_zero_or_pos (i - 1) with h0 | h0
        · rw [h0]; simp [Spec.hkdfT]
        · rw [hkdfT_length prk info L _ h0]
      obtain ⟨h1, e1, r1⟩ := hmac_update_spec L m prk _ info h hrel (by rw [List.length_append]; omega)
      obtain ⟨h2, e2, r2⟩ := hmac_update_spec L m prk _ [BitVec.ofNat 8 i] h1 r1
        (by simp only [List.length_append, List.length_cons, List.length_nil]; omega)
      have ht := hmac_tag_spec L m prk _ h2 r2
        (by simp only [List.length_append, List.length_cons, List.length_nil]; omega)
      have hT : Spec.hmac hash H.blockSize prk (Spec.hkdfT hash H.blockSize prk info (i - 1) ++ info
          ++ [BitVec.ofNat 8 i]) = Spec.hkdfT hash H.blockSize prk info i := by
        obtain ⟨j, rfl⟩ : ∃ j, i = j + 1 := ⟨i - 1, by omega⟩
        simp [Spec.hkdfT]
      rw [hT] at ht
      have hTi := hkdfT_length prk info L i (by omega)
      have hout : ∀ r, loopOut hash H.blockSize prk info i r =
          (Spec.hkdfT hash H.blockSize prk info i ++ (List.range' (i + 1) (256 - (i + 1))).flatMap
            (fun j => Spec.hkdfT hash H.blockSize prk info j)).take r := by
        intro r
        unfold loopOut
        rw [show 256 - i = (256 - (i + 1)) + 1 by omega, List.range'_succ, List.flatMap_cons]
      rw [chunks_of_ne_nil hd hnil]
      simp only [Hkdf.expandLoop, hn, Option.bind_eq_bind, Option.bind_some, e1, e2, ht]
      by_cases hlt : okm.length < H.digestSize
      · have htl : (okm.take H.digestSize).length = okm.length := by simp; omega
        rw [htl, if_pos hlt]
        rw [show decide (okm.length ≤ (Spec.hkdfT hash H.blockSize prk info i).length) = true by
          simp; omega]
        simp only [assert_true, Option.bind_some]
        refine ⟨_, rfl, ?_⟩
        rw [List.drop_of_length_le (by omega), chunks_nil, hout, ← hk']
        rw [List.take_append_of_le_length (by omega)]
        simp
      · have htl : (okm.take H.digestSize).length = H.digestSize := by simp; omega
        rw [htl, if_neg (by omega), hTi]
        simp only [beq_self_eq_true, assert_true, Option.bind_some]
        obtain ⟨h3, e3, r3⟩ := hmac_new_spec L m prk hk
        obtain ⟨h4, e4, r4⟩ := hmac_update_spec L m prk [] (Spec.hkdfT hash H.blockSize prk info i) h3 r3
          (by rw [List.nil_append]; omega)
        rw [e3]; simp only [Option.bind_some]
        rw [e4]; simp only [Option.bind_some]
        have hmul : (256 - i) * H.digestSize = (256 - (i + 1)) * H.digestSize + H.digestSize := by
          rw [show 256 - i = 256 - (i + 1) + 1 by omega, Nat.add_mul, Nat.one_mul]
        obtain ⟨cs, e5, e6⟩ := ih (okm.drop H.digestSize).length (by simp; omega) (okm.drop H.digestSize) rfl
          (i + 1) h4 (by omega) (by omega) (by simp only [List.length_drop]; omega) r4 (by
            rcases hm with h | h
            · exact Or.inl h
            · right
              have h254 : i ≤ 254 := by rcases hi255 with h' | h' <;> [skip; omega]; 
                                        rcases Nat.lt_or_ge 254 i with h0 | h0
                                        · rw [show 255 - i = 0 by omega] at h; omega
                                        · exact h0
              have hmul2 : (255 - i) * H.digestSize = (255 - (i + 1)) * H.digestSize + H.digestSize := by
                rcases Nat.eq_or_lt_of_le h254 with h0 | h0
                · subst h0; simp at h ⊢
                · rw [show 255 - i = 255 - (i + 1) + 1 by omega, Nat.add_mul, Nat.one_mul]
              simp only [List.length_drop]; omega)
        rw [e5]
        refine ⟨_, rfl, ?_⟩
        rw [List.flatten_cons, e6, hout, ← hk']
        rw [show okm.length = (Spec.hkdfT hash H.blockSize prk info i).length + (okm.drop H.digestSize).length by
          rw [List.length_drop]; omega, List.take_length_add_append]
        rfl

theorem loopOut_one (hash : Bytes → Bytes) (B n : Nat) :
    loopOut hash B prk info 1 n = Spec.hkdfExpand hash B prk info n := by
  unfold loopOut Spec.hkdfExpand
  rw [show 256 - 1 = 255 from rfl]
  generalize 255 = N
  rw [List.range'_eq_map_range, List.flatMap_map]
  simp only [Nat.add_comm 1]

theorem expandLoop_debug (okm : Bytes) (hd : 0 < H.digestSize) :
    ∀ (i : Nat) (h : Hmac.Hmac H), 1 ≤ i → i ≤ 255 → (255 - i) * H.digestSize ≤ okm.length →
    Hkdf.expandLoop H .debug prk info (chunks H.digestSize okm) (BitVec.ofNat 8 i) h = none := by
  induction hk' : okm.length using Nat.strongRecOn generalizing okm with
  | _ k ih =>
    intro i h hi1 hi2 hlen
    by_cases h255 : i = 255
    · subst h255
      have e : rangeNext .debug (BitVec.ofNat 8 255) = none := rangeNext_debug_max
      cases chunks H.digestSize okm <;> simp [Hkdf.expandLoop, e]
    · have hmul : (255 - i) * H.digestSize = (255 - (i + 1)) * H.digestSize + H.digestSize := by
        rw [show 255 - i = 255 - (i + 1) + 1 by omega, Nat.add_mul, Nat.one_mul]
      have hnil : okm ≠ [] := by intro e; simp [e] at hk'; omega
      rw [chunks_of_ne_nil hd hnil]
      have htl : (okm.take H.digestSize).length = H.digestSize := by simp; omega
      simp only [Hkdf.expandLoop, rangeNext_ok .debug i (by omega) (Or.inr (by omega)),
        Option.bind_eq_bind, Option.bind_some, htl, Nat.lt_irrefl, if_false]
      have hnone : ∀ hm, Hkdf.expandLoop H .debug prk info (chunks H.digestSize (List.drop H.digestSize okm))
        (BitVec.ofNat 8 (i + 1)) hm = none := fun hm =>
        ih (okm.drop H.digestSize).length (by simp; omega) (okm.drop H.digestSize) rfl (i + 1) hm
          (by omega) (by omega) (by simp only [List.length_drop]; omega)
      simp [hnone]

theorem expand_spec (L : Lawful H hash R) (m : Mode) (okm : Bytes) (hk : prk.length < 2 ^ 61)
    (hl : H.blockSize + H.digestSize + info.length + 1 < 2 ^ 61) :
    Hkdf.expand H m prk info okm =
      if H.digestSize ≤ prk.length ∧ okm.length ≤ 255 * H.digestSize ∧
        (m = .debug → okm.length < 254 * H.digestSize)
      then some (Spec.hkdfExpand hash H.blockSize prk info okm.length) else none := by
  have hd := L.digestPos
  unfold Hkdf.expand
  by_cases h1 : H.digestSize ≤ prk.length
  · by_cases h2 : okm.length ≤ 255 * H.digestSize
    · obtain ⟨h, e1, r1⟩ := hmac_new_spec L m prk hk
      simp only [h1, h2, e1, decide_true, assert_true, Option.bind_eq_bind, Option.bind_some,
        true_and]
      rw [show (H.digestSize != 0) = true by simp; omega]
      simp only [assert_true, Option.bind_some]
      by_cases h3 : m = .debug → okm.length < 254 * H.digestSize
      · rw [if_pos h3]
        obtain ⟨cs, e2, e3⟩ := expandLoop_spec prk info L m hk hl okm 1 h (by omega) (by omega)
          (by omega) r1 (by cases m with
            | debug => exact Or.inr (by have := h3 rfl; omega)
            | release => exact Or.inl rfl)
        rw [show (1 : U8) = BitVec.ofNat 8 1 from rfl, e2]
        simp only [Option.bind_some, e3]
        rw [loopOut_one]
      · rw [if_neg h3]
        have hm : m = .debug := by by_contra hne; exact h3 (fun e => absurd e hne)
        subst hm
        have h3' : 254 * H.digestSize ≤ okm.length := by
          by_contra hlt; exact h3 (fun _ => by omega)
        rw [show (1 : U8) = BitVec.ofNat 8 1 from rfl,
          expandLoop_debug prk info okm hd 1 h (by omega) (by omega) (by omega)]
        rfl
    · rw [if_neg (by omega)]
      simp only [h1, decide_true, assert_true, Option.bind_eq_bind, Option.bind_some, ge_iff_le, h2,
        decide_false, assert_false, Option.bind_none]
  · rw [if_neg (by omega)]
    simp only [h1, decide_false, assert_false, Option.bind_eq_bind, Option.bind_none]

end CryptoPure.Proofs
