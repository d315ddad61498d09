import Verif.Proofs.Hmac
import Verif.Proofs.ShaAny

/-! HMAC and HKDF for keys and messages of every length: without overflow checks the length fields of the hash function
wrap, with overflow checks there is a panic. -/

namespace CryptoPure.Proofs.Long
open CryptoPure.Model CryptoPure.Model.Sha2

/-- Without overflow checks the object computes `hash` on every input. -/
structure LawfulR (H : HashFunction) (hash : Bytes → Bytes) (R : Bytes → H.State → Prop) : Prop where
  init : R [] H.default
  update : ∀ msg s x, R msg s → ∃ s', H.update .release s x = some s' ∧ R (msg ++ x) s'
  finish : ∀ msg s out, R msg s → out.length = H.digestSize → H.writeDigest .release s out = some (hash msg)
  hashLen : ∀ msg, (hash msg).length = H.digestSize
  digestPos : 0 < H.digestSize
  digestMax : H.digestSize ≤ maxDigestSize
  digestBlock : H.digestSize ≤ H.blockSize

/-- With overflow checks: `update` panics exactly when the total reaches `2^64` bytes, and an object with `2^61` bytes or
more cannot be finished. -/
structure LawfulD (H : HashFunction) (R : Bytes → H.State → Prop) : Prop where
  update : ∀ msg s x, R msg s → msg.length < 2 ^ 64 → x.length < 2 ^ 64 →
    (msg.length + x.length < 2 ^ 64 → ∃ s', H.update .debug s x = some s' ∧ R (msg ++ x) s') ∧
    (¬ msg.length + x.length < 2 ^ 64 → H.update .debug s x = none)
  finish : ∀ msg s out, R msg s → 2 ^ 61 ≤ msg.length → msg.length < 2 ^ 64 → H.writeDigest .debug s out = none

section sha
variable {w : Nat} {P : Params w} {A : Spec.Sha2.Alg w}

theorem lawfulR_impl (M : Sha2.Matches P A) (iv : Oct w) (n : Nat) (hn : n ≤ 8 * (w / 8)) (h0 : 0 < n)
    (hd : n % (w / 8) = 0) (h64 : n ≤ 64) :
    LawfulR (implFunction P iv n P.blockSize)
      (fun msg => Spec.Sha2.digestWith A iv n msg (8 * msg.length % 2 ^ 64)) (ShaRel P iv) := by
  have hb := M.block
  have hw := M.wpos
  refine ⟨⟨Sha2.absorbs_new iv (by omega), rfl⟩, ?_, ?_, ?_, h0, h64, ?_⟩
  · intro msg s x hs
    exact shaRel_update (by omega) .release iv msg x s hs (Or.inl rfl)
  · intro msg s out hs ho
    have ho : out.length = n := ho
    show (do assert (n == out.length); procWriteDigest P .release s out.length) = _
    rw [ho]
    simp only [beq_self_eq_true, assert_true, Option.bind_eq_bind, Option.bind_some]
    rw [Sha2.procWriteDigest_spec M .release iv _ s hs.1 _ (mulC_release _ _) n hd, hs.2]
    congr 2
    rw [BitVec.toNat_mul, BitVec.toNat_ofNat]
    change 8 * (msg.length % 2 ^ 64) % 2 ^ 64 = _
    omega
  · intro msg; exact digestWith_length iv n hn msg _
  · show n ≤ P.blockSize
    omega

theorem lawfulD_impl (M : Sha2.Matches P A) (iv : Oct w) (n bs : Nat) :
    LawfulD (implFunction P iv n bs) (ShaRel P iv) := by
  have hb := M.block
  have hw := M.wpos
  refine ⟨fun msg s x hs hm hx => ⟨fun h => ?_, fun h => ?_⟩, fun msg s out hs hl hm => ?_⟩
  · exact shaRel_update (by omega) .debug iv msg x s hs (.inr (by omega))
  · show Sha2.update P .debug s x = none
    unfold Sha2.update
    rw [addC_debug_overflow]
    · rfl
    · rw [hs.2]; simp only [BitVec.toNat_ofNat]; omega
  · show (do assert (n == out.length); procWriteDigest P .debug s out.length) = none
    rw [Sha2.procWriteDigest_none .debug s (by
      rw [hs.2, mulC_debug_overflow]
      rw [BitVec.toNat_ofNat]
      change ¬ 8 * (msg.length % 2 ^ 64) < 2 ^ 64
      omega)]
    cases assert (n == out.length) <;> rfl

end sha

variable {H : HashFunction} {hash : Bytes → Bytes} {R : Bytes → H.State → Prop}

/-! ### Without overflow checks -/

theorem keyed_first (L : LawfulR H hash R) (pad : U8) (key : Bytes) :
    ∀ (pre : Bytes) (s : H.State), R pre s →
    ∃ s', key.foldlM (fun s byte => H.update .release s [byte ^^^ pad]) s = some s' ∧
      R (pre ++ key.map (· ^^^ pad)) s' := by
  induction key with
  | nil => intro pre s hs; exact ⟨s, rfl, by simpa using hs⟩
  | cons b key ih =>
    intro pre s hs
    obtain ⟨s1, h1, h2⟩ := L.update pre s [b ^^^ pad] hs
    obtain ⟨s2, h3, h4⟩ := ih _ s1 h2
    refine ⟨s2, ?_, by simpa using h4⟩
    rw [List.foldlM_cons, h1]; exact h3

theorem keyed_second (L : LawfulR H hash R) (pad : U8) (l : List Nat) :
    ∀ (pre : Bytes) (s : H.State), R pre s →
    ∃ s', l.foldlM (fun s _ => H.update .release s [pad]) s = some s' ∧
      R (pre ++ List.replicate l.length pad) s' := by
  induction l with
  | nil => intro pre s hs; exact ⟨s, rfl, by simpa using hs⟩
  | cons b l ih =>
    intro pre s hs
    obtain ⟨s1, h1, h2⟩ := L.update pre s [pad] hs
    obtain ⟨s2, h3, h4⟩ := ih _ s1 h2
    refine ⟨s2, ?_, by simpa [List.replicate_succ] using h4⟩
    rw [List.foldlM_cons, h1]; exact h3

theorem keyed_spec (L : LawfulR H hash R) (pad : U8) (key : Bytes) (hk : key.length ≤ H.blockSize) :
    ∃ s, Hmac.keyedHashFunction H .release key pad = some s ∧
      R (xorBytes (key ++ zeros (H.blockSize - key.length)) (List.replicate H.blockSize pad)) s := by
  obtain ⟨s1, h1, h2⟩ := keyed_first L pad key [] H.default L.init
  obtain ⟨s2, h3, h4⟩ := keyed_second L pad (List.range' key.length (H.blockSize - key.length)) _ s1 h2
  refine ⟨s2, ?_, ?_⟩
  · unfold Hmac.keyedHashFunction
    rw [h1]; exact h3
  · have e : xorBytes (key ++ zeros (H.blockSize - key.length)) (List.replicate H.blockSize pad)
        = [] ++ key.map (· ^^^ pad) ++
          List.replicate (List.range' key.length (H.blockSize - key.length)).length pad := by
      rw [show List.replicate H.blockSize pad = List.replicate key.length pad
        ++ List.replicate (H.blockSize - key.length) pad by
          rw [List.replicate_append_replicate]; congr 1; omega]
      rw [xorBytes_append (by simp)]
      simp only [List.nil_append, List.length_range']
      congr 1
      · clear h1 h2 h3 h4 hk
        induction key with
        | nil => rfl
        | cons a key ih => simp only [List.length_cons, List.replicate_succ, xorBytes, List.zipWith_cons_cons,
            List.map_cons] at ih ⊢; rw [ih]
      · simp [xorBytes, zeros]
    rw [e]; exact h4

theorem hmac_new_spec (L : LawfulR H hash R) (key : Bytes) :
    ∃ h, Hmac.new H .release key = some h ∧ HmacRel hash R key [] h := by
  have hdb := L.digestBlock
  have main : ∀ k : Bytes, k.length ≤ H.blockSize → Spec.hmacKey hash H.blockSize key
      = k ++ zeros (H.blockSize - k.length) →
      ∃ h, (do
        let i ← Hmac.keyedHashFunction H .release k 0x36
        let o ← Hmac.keyedHashFunction H .release k 0x5c
        some ({ inner := i, outer := o } : Hmac.Hmac H)) = some h ∧ HmacRel hash R key [] h := by
    intro k hkl he
    obtain ⟨si, h1, h2⟩ := keyed_spec L 0x36 k hkl
    obtain ⟨so, h3, h4⟩ := keyed_spec L 0x5c k hkl
    refine ⟨⟨si, so⟩, by rw [h1, h3]; rfl, ?_, ?_⟩
    · rw [he, List.append_nil]; exact h2
    · rw [he]; exact h4
  unfold Hmac.new
  by_cases hlong : key.length > H.blockSize
  · obtain ⟨s, h1, h2⟩ := L.update [] H.default key L.init
    rw [if_pos hlong, h1]
    simp only [Option.bind_eq_bind, Option.bind_some]
    rw [show decide (H.digestSize ≤ maxDigestSize) = true by simpa using L.digestMax]
    simp only [assert_true, Option.bind_some]
    rw [L.finish key s _ (by simpa using h2) (by simp)]
    simp only [Option.bind_some]
    apply main (hash key)
    · rw [L.hashLen]; exact hdb
    · simp [Spec.hmacKey, hlong]
  · rw [if_neg hlong]
    simp only [Option.bind_eq_bind, Option.bind_some]
    apply main key (by omega)
    simp [Spec.hmacKey, hlong]

theorem hmac_update_spec (L : LawfulR H hash R) (key msg x : Bytes) (h : Hmac.Hmac H)
    (hh : HmacRel hash R key msg h) :
    ∃ h', Hmac.update .release h x = some h' ∧ HmacRel hash R key (msg ++ x) h' := by
  obtain ⟨s, h1, h2⟩ := L.update _ h.inner x hh.1
  refine ⟨{ h with inner := s }, by simp [Hmac.update, h1], ?_, hh.2⟩
  rw [← List.append_assoc]; exact h2

theorem hmac_updates_spec (L : LawfulR H hash R) (key : Bytes) (parts : List Bytes) :
    ∀ (msg : Bytes) (h : Hmac.Hmac H), HmacRel hash R key msg h →
    ∃ h', parts.foldlM (Hmac.update .release) h = some h' ∧ HmacRel hash R key (msg ++ parts.flatten) h' := by
  induction parts with
  | nil => intro msg h hh; exact ⟨h, rfl, by simpa using hh⟩
  | cons p ps ih =>
    intro msg h hh
    obtain ⟨h1, e1, r1⟩ := hmac_update_spec L key msg p h hh
    obtain ⟨h2, e2, r2⟩ := ih _ h1 r1
    refine ⟨h2, ?_, by simpa using r2⟩
    rw [List.foldlM_cons, e1]; exact e2

theorem hmac_writeTag_spec (L : LawfulR H hash R) (key msg out : Bytes) (h : Hmac.Hmac H)
    (hh : HmacRel hash R key msg h) (ho : out.length = H.digestSize) :
    Hmac.writeTag .release h out = some (Spec.hmac hash H.blockSize key msg) := by
  unfold Hmac.writeTag
  rw [ho]
  simp only [beq_self_eq_true, assert_true, Option.bind_eq_bind, Option.bind_some]
  rw [L.finish _ h.inner out hh.1 ho]
  simp only [Option.bind_some]
  obtain ⟨s, h1, h2⟩ := L.update _ h.outer (hash (xorBytes (Spec.hmacKey hash H.blockSize key)
    (List.replicate H.blockSize 0x36) ++ msg)) hh.2
  rw [h1]
  simp only [Option.bind_some]
  rw [L.finish _ s _ h2 (L.hashLen _)]
  rfl

theorem hmac_tag_spec (L : LawfulR H hash R) (key msg : Bytes) (h : Hmac.Hmac H)
    (hh : HmacRel hash R key msg h) :
    Hmac.tag .release h = some (Spec.hmac hash H.blockSize key msg) := by
  unfold Hmac.tag
  rw [show decide (H.digestSize ≤ maxDigestSize) = true by simpa using L.digestMax]
  simp only [assert_true, Option.bind_eq_bind, Option.bind_some]
  exact hmac_writeTag_spec L key msg _ h hh (by simp)

theorem hmac_wrapper_spec (L : LawfulR H hash R) (key msg : Bytes) :
    Hmac.wrapper H .release key msg = some (Spec.hmac hash H.blockSize key msg) := by
  obtain ⟨h, e1, r1⟩ := hmac_new_spec L key
  obtain ⟨h2, e2, r2⟩ := hmac_update_spec L key [] msg h r1
  unfold Hmac.wrapper
  rw [e1]; simp only [Option.bind_eq_bind, Option.bind_some]
  rw [e2]; simp only [Option.bind_some]
  exact hmac_writeTag_spec L key msg _ h2 r2 (by simp)

theorem hmac_verify_spec (L : LawfulR H hash R) (key msg tag : Bytes) :
    Hmac.verify H .release key msg tag = some (decide (Spec.hmac hash H.blockSize key msg = tag)) := by
  obtain ⟨h, e1, r1⟩ := hmac_new_spec L key
  obtain ⟨h2, e2, r2⟩ := hmac_update_spec L key [] msg h r1
  unfold Hmac.verify
  rw [e1]; simp only [Option.bind_eq_bind, Option.bind_some]
  rw [e2]; simp only [Option.bind_some]
  rw [hmac_tag_spec L key msg h2 r2]
  exact compare_spec _ _

theorem extract_spec (L : LawfulR H hash R) (salt ikm prk : Bytes) :
    Hkdf.extract H .release salt ikm prk =
      if prk.length = H.digestSize then some (Spec.hmac hash H.blockSize salt ikm) else none := by
  unfold Hkdf.extract
  by_cases hp : prk.length = H.digestSize
  · rw [if_pos hp, hp]
    obtain ⟨h, e1, r1⟩ := hmac_new_spec L salt
    obtain ⟨h2, e2, r2⟩ := hmac_update_spec L salt [] ikm h r1
    simp only [beq_self_eq_true, assert_true, Option.bind_eq_bind, Option.bind_some]
    rw [e1]; simp only [Option.bind_some]
    rw [e2]; simp only [Option.bind_some]
    rw [hmac_tag_spec L salt ikm h2 r2]
    simp [L.hashLen, Spec.hmac]
  · rw [if_neg hp, beq_eq_false_iff_ne.mpr (fun e => hp e.symm)]
    rfl

variable (prk info : Bytes)

theorem hkdfT_length (L : LawfulR H hash R) (i : Nat) (hi : 0 < i) :
    (Spec.hkdfT hash H.blockSize prk info i).length = H.digestSize := by
  cases i with
  | zero => omega
  | succ i => exact L.hashLen _

theorem rangeNext_release (i : U8) : ∃ n, rangeNext .release i = some (i, n) :=
  ⟨_, by simp only [rangeNext, addC_release]; rfl⟩

theorem expandLoop_spec (L : LawfulR H hash R) (okm : Bytes) :
    ∀ (i : Nat) (h : Hmac.Hmac H), 1 ≤ i → i ≤ 256 → okm.length ≤ (256 - i) * H.digestSize →
    HmacRel hash R prk (Spec.hkdfT hash H.blockSize prk info (i - 1)) h →
    ∃ cs, Hkdf.expandLoop H .release prk info (chunks H.digestSize okm) (BitVec.ofNat 8 i) h = some cs ∧
      cs.flatten = loopOut hash H.blockSize prk info i okm.length := by
  have hd := L.digestPos
  induction hk' : okm.length using Nat.strongRecOn generalizing okm with
  | _ k ih =>
    intro i h hi1 hi2 hlen hrel
    by_cases hnil : okm = []
    · subst hnil
      have hk0 : k = 0 := by simpa using hk'.symm
      obtain ⟨p, hp⟩ := rangeNext_release (BitVec.ofNat 8 i)
      refine ⟨[], by simp [Hkdf.expandLoop, hp], ?_⟩
      subst hk0; simp [loopOut]
    · have hpos : 0 < okm.length := List.length_pos_iff.mpr hnil
      have hi255' : i ≤ 255 := by
        rcases Nat.lt_or_ge 255 i with h0 | h0
        · rw [show 256 - i = 0 by omega] at hlen; omega
        · exact h0
      have hn := rangeNext_ok .release i (by omega) (Or.inl rfl)
      obtain ⟨h1, e1, r1⟩ := hmac_update_spec L prk _ info h hrel
      obtain ⟨h2, e2, r2⟩ := hmac_update_spec L prk _ [BitVec.ofNat 8 i] h1 r1
      have ht := hmac_tag_spec L prk _ h2 r2
      have hT : Spec.hmac hash H.blockSize prk (Spec.hkdfT hash H.blockSize prk info (i - 1) ++ info
          ++ [BitVec.ofNat 8 i]) = Spec.hkdfT hash H.blockSize prk info i := by
        obtain ⟨j, rfl⟩ : ∃ j, i = j + 1 := ⟨i - 1, by omega⟩
        simp [Spec.hkdfT]
      rw [hT] at ht
      have hTi := hkdfT_length prk info L i (by omega)
      have hout : ∀ r, loopOut hash H.blockSize prk info i r =
          (Spec.hkdfT hash H.blockSize prk info i ++ (List.range' (i + 1) (256 - (i + 1))).flatMap
            (fun j => Spec.hkdfT hash H.blockSize prk info j)).take r := by
        intro r
        unfold loopOut
        rw [show 256 - i = (256 - (i + 1)) + 1 by omega, List.range'_succ, List.flatMap_cons]
      rw [chunks_of_ne_nil hd hnil]
      simp only [Hkdf.expandLoop, hn, Option.bind_eq_bind, Option.bind_some, e1, e2, ht]
      by_cases hlt : okm.length < H.digestSize
      · have htl : (okm.take H.digestSize).length = okm.length := by simp; omega
        rw [htl, if_pos hlt]
        rw [show decide (okm.length ≤ (Spec.hkdfT hash H.blockSize prk info i).length) = true by
          simp; omega]
        simp only [assert_true, Option.bind_some]
        refine ⟨_, rfl, ?_⟩
        rw [List.drop_of_length_le (by omega), chunks_nil, hout, ← hk']
        rw [List.take_append_of_le_length (by omega)]
        simp
      · have htl : (okm.take H.digestSize).length = H.digestSize := by simp; omega
        rw [htl, if_neg (by omega), hTi]
        simp only [beq_self_eq_true, assert_true, Option.bind_some]
        obtain ⟨h3, e3, r3⟩ := hmac_new_spec L prk
        obtain ⟨h4, e4, r4⟩ := hmac_update_spec L prk [] (Spec.hkdfT hash H.blockSize prk info i) h3 r3
        rw [e3]; simp only [Option.bind_some]
        rw [e4]; simp only [Option.bind_some]
        have hmul : (256 - i) * H.digestSize = (256 - (i + 1)) * H.digestSize + H.digestSize := by
          rw [show 256 - i = 256 - (i + 1) + 1 by omega, Nat.add_mul, Nat.one_mul]
        obtain ⟨cs, e5, e6⟩ := ih (okm.drop H.digestSize).length (by simp; omega) (okm.drop H.digestSize) rfl
          (i + 1) h4 (by omega) (by omega) (by simp only [List.length_drop]; omega) r4
        rw [e5]
        refine ⟨_, rfl, ?_⟩
        rw [List.flatten_cons, e6, hout, ← hk']
        rw [show okm.length = (Spec.hkdfT hash H.blockSize prk info i).length + (okm.drop H.digestSize).length by
          rw [List.length_drop]; omega, List.take_length_add_append]
        rfl

theorem expand_spec (L : LawfulR H hash R) (okm : Bytes) :
    Hkdf.expand H .release prk info okm =
      if H.digestSize ≤ prk.length ∧ okm.length ≤ 255 * H.digestSize
      then some (Spec.hkdfExpand hash H.blockSize prk info okm.length) else none := by
  have hd := L.digestPos
  unfold Hkdf.expand
  by_cases h1 : H.digestSize ≤ prk.length
  · by_cases h2 : okm.length ≤ 255 * H.digestSize
    · obtain ⟨h, e1, r1⟩ := hmac_new_spec L prk
      simp only [h1, h2, e1, decide_true, assert_true, Option.bind_eq_bind, Option.bind_some]
      rw [show (H.digestSize != 0) = true by simp; omega]
      simp only [assert_true, Option.bind_some, and_self, if_true]
      obtain ⟨cs, e2, e3⟩ := expandLoop_spec prk info L okm 1 h (by omega) (by omega) (by omega) r1
      rw [show (1 : U8) = BitVec.ofNat 8 1 from rfl, e2]
      simp only [Option.bind_some, e3]
      rw [loopOut_one]
    · rw [if_neg (by omega)]
      simp only [h1, decide_true, assert_true, Option.bind_eq_bind, Option.bind_some, ge_iff_le, h2,
        decide_false, assert_false, Option.bind_none]
  · rw [if_neg (by omega)]
    simp only [h1, decide_false, assert_false, Option.bind_eq_bind, Option.bind_none]

/-! ### With overflow checks -/

/-- A key of `2^61` bytes or more. -/
theorem new_debug_none (L : Lawful H hash R) (D : LawfulD H R) (key : Bytes) (h1 : 2 ^ 61 ≤ key.length) (h2 : key.length < 2 ^ 64) :
    Hmac.new H .debug key = none := by
  have hb := L.blockMax
  unfold Hmac.new
  rw [if_pos (by omega)]
  obtain ⟨s, e, r⟩ := (D.update [] H.default key L.init (by simp) h2).1 (by simpa using h2)
  rw [e]
  simp only [Option.bind_eq_bind, Option.bind_some]
  rw [show decide (H.digestSize ≤ maxDigestSize) = true by simpa using L.digestMax]
  simp only [assert_true, Option.bind_some]
  rw [D.finish key s _ (by simpa using r) h1 h2]
  rfl

/-- What a keyed object has absorbed, with `n` message bytes. -/
theorem inner_length (L : Lawful H hash R) (key msg : Bytes) :
    (xorBytes (Spec.hmacKey hash H.blockSize key) (List.replicate H.blockSize 0x36) ++ msg).length = H.blockSize + msg.length := by
  rw [List.length_append, xorBytes_length, hmacKey_length L, List.length_replicate, Nat.min_self]

theorem update_debug (L : Lawful H hash R) (D : LawfulD H R) (key msg x : Bytes) (h : Hmac.Hmac H) (hh : HmacRel hash R key msg h)
    (hm : H.blockSize + msg.length < 2 ^ 64) (hx : x.length < 2 ^ 64) :
    (H.blockSize + msg.length + x.length < 2 ^ 64 → ∃ h', Hmac.update .debug h x = some h' ∧ HmacRel hash R key (msg ++ x) h') ∧
    (¬ H.blockSize + msg.length + x.length < 2 ^ 64 → Hmac.update .debug h x = none) := by
  have := D.update _ h.inner x hh.1 (by rw [inner_length L]; exact hm) hx
  rw [inner_length L] at this
  refine ⟨fun hl => ?_, fun hl => ?_⟩
  · obtain ⟨s, e, r⟩ := this.1 hl
    refine ⟨{ h with inner := s }, by simp [Hmac.update, e], ?_, hh.2⟩
    rw [← List.append_assoc]; exact r
  · simp [Hmac.update, this.2 hl]

theorem writeTag_debug_none (L : Lawful H hash R) (D : LawfulD H R) (key msg out : Bytes) (h : Hmac.Hmac H) (hh : HmacRel hash R key msg h)
    (h1 : 2 ^ 61 ≤ H.blockSize + msg.length) (h2 : H.blockSize + msg.length < 2 ^ 64) : Hmac.writeTag .debug h out = none := by
  unfold Hmac.writeTag
  rw [D.finish _ h.inner out hh.1 (by rw [inner_length L]; exact h1) (by rw [inner_length L]; exact h2)]
  cases assert (H.digestSize == out.length) <;> rfl

theorem tag_debug_none (L : Lawful H hash R) (D : LawfulD H R) (key msg : Bytes) (h : Hmac.Hmac H) (hh : HmacRel hash R key msg h)
    (h1 : 2 ^ 61 ≤ H.blockSize + msg.length) (h2 : H.blockSize + msg.length < 2 ^ 64) : Hmac.tag .debug h = none := by
  unfold Hmac.tag
  rw [writeTag_debug_none L D key msg _ h hh h1 h2]
  cases assert (decide (H.digestSize ≤ maxDigestSize)) <;> rfl

/-- Feeding `parts` either panics or ends with all of them absorbed. -/
theorem updates_debug (L : Lawful H hash R) (D : LawfulD H R) (key : Bytes) (parts : List Bytes) (hp : ∀ p ∈ parts, p.length < 2 ^ 64) :
    ∀ (msg : Bytes) (h : Hmac.Hmac H), HmacRel hash R key msg h → H.blockSize + msg.length < 2 ^ 64 →
    (H.blockSize + (msg ++ parts.flatten).length < 2 ^ 64 →
      ∃ h', parts.foldlM (Hmac.update .debug) h = some h' ∧ HmacRel hash R key (msg ++ parts.flatten) h') ∧
    (¬ H.blockSize + (msg ++ parts.flatten).length < 2 ^ 64 → parts.foldlM (Hmac.update .debug) h = none) := by
  induction parts with
  | nil => intro msg h hh hm; exact ⟨fun _ => ⟨h, rfl, by simpa using hh⟩, fun hn => absurd (by simpa using hm) hn⟩
  | cons p ps ih =>
    intro msg h hh hm
    have hu := update_debug L D key msg p h hh hm (hp p (by simp))
    have ih := ih (fun q hq => hp q (by simp [hq]))
    simp only [List.flatten_cons, List.length_append, List.foldlM_cons]
    by_cases hl : H.blockSize + msg.length + p.length < 2 ^ 64
    · obtain ⟨h1, e1, r1⟩ := hu.1 hl
      have := ih (msg ++ p) h1 r1 (by rw [List.length_append]; omega)
      simp only [List.length_append, List.append_assoc] at this
      rw [e1]
      refine ⟨fun hlt => this.1 (by omega), fun hlt => this.2 (by omega)⟩
    · rw [hu.2 hl]
      exact ⟨fun hlt => absurd hlt (by omega), fun _ => rfl⟩

/-- Key setup, any `update` calls, then a finishing step that panics from `2^61` absorbed bytes on. -/
theorem parts_debug {α : Type} (L : Lawful H hash R) (D : LawfulD H R) (key : Bytes) (parts : List Bytes) (fin : Hmac.Hmac H → Option α)
    (hk : key.length < 2 ^ 64) (hp : ∀ p ∈ parts, p.length < 2 ^ 64)
    (hf : ∀ msg h, HmacRel hash R key msg h → 2 ^ 61 ≤ H.blockSize + msg.length → H.blockSize + msg.length < 2 ^ 64 → fin h = none)
    (hlong : ¬ (key.length < 2 ^ 61 ∧ H.blockSize + parts.flatten.length < 2 ^ 61)) :
    (do let h ← Hmac.new H .debug key
        let h ← parts.foldlM (Hmac.update .debug) h
        fin h) = none := by
  have hb := L.blockMax
  by_cases h1 : key.length < 2 ^ 61
  · obtain ⟨h, e, r⟩ := Proofs.hmac_new_spec L .debug key h1
    rw [e]
    simp only [Option.bind_eq_bind, Option.bind_some]
    have hu := updates_debug L D key parts hp [] h r (by simp; omega)
    simp only [List.nil_append] at hu
    by_cases h2 : H.blockSize + parts.flatten.length < 2 ^ 64
    · obtain ⟨h', e', r'⟩ := hu.1 h2
      rw [e']
      exact hf _ h' r' (by omega) h2
    · rw [hu.2 h2]; rfl
  · rw [new_debug_none L D key (by omega) hk]; rfl

/-! HKDF-Expand -/

/-- One round of the loop absorbs `T`, `info` and a byte; that panics when it makes too many bytes. -/
theorem round_none (L : Lawful H hash R) (D : LawfulD H R) (T : Bytes) (h : Hmac.Hmac H) (hh : HmacRel hash R prk T h) (i : U8)
    (hT : T.length ≤ H.digestSize) (hi : info.length < 2 ^ 64) (hl : ¬ H.blockSize + T.length + info.length + 1 < 2 ^ 61) :
    (do let h ← Hmac.update .debug h info
        let h ← Hmac.update .debug h [i]
        Hmac.tag .debug h) = none := by
  have hb := L.blockMax
  have hdb := L.digestBlock
  by_cases h1 : H.blockSize + T.length + info.length < 2 ^ 64
  · obtain ⟨g, e, r⟩ := (update_debug L D prk T info h hh (by omega) hi).1 h1
    rw [e]
    simp only [Option.bind_eq_bind, Option.bind_some]
    have hu := update_debug L D prk _ [i] g r (by rw [List.length_append]; omega) (by simp)
    simp only [List.length_append, List.length_cons, List.length_nil] at hu
    by_cases h2 : H.blockSize + (T.length + info.length) + (0 + 1) < 2 ^ 64
    · obtain ⟨g', e', r'⟩ := hu.1 h2
      rw [e']
      simp only [Option.bind_some]
      exact tag_debug_none L D prk _ g' r' (by simp only [List.length_append, List.length_cons, List.length_nil]; omega)
        (by simp only [List.length_append, List.length_cons, List.length_nil]; omega)
    · rw [hu.2 h2]; rfl
  · rw [(update_debug L D prk T info h hh (by omega) hi).2 h1]; rfl

theorem round_some (L : Lawful H hash R) (m : Mode) (T : Bytes) (h : Hmac.Hmac H) (hh : HmacRel hash R prk T h) (i : U8)
    (hl : H.blockSize + T.length + info.length + 1 < 2 ^ 61) :
    (do let h ← Hmac.update m h info
        let h ← Hmac.update m h [i]
        Hmac.tag m h) = some (Spec.hmac hash H.blockSize prk (T ++ info ++ [i])) := by
  obtain ⟨g, e, r⟩ := Proofs.hmac_update_spec L m prk T info h hh (by rw [List.length_append]; omega)
  obtain ⟨g', e', r'⟩ := Proofs.hmac_update_spec L m prk _ [i] g r (by simp only [List.length_append, List.length_cons, List.length_nil]; omega)
  rw [e]
  simp only [Option.bind_eq_bind, Option.bind_some]
  rw [e']
  simp only [Option.bind_some]
  exact Proofs.hmac_tag_spec L m prk _ g' r' (by simp only [List.length_append, List.length_cons, List.length_nil]; omega)

/-- The loop body, with the three calls on the HMAC object together. -/
theorem expandLoop_cons (m : Mode) (chunk : Bytes) (rest : List Bytes) (i : U8) (h : Hmac.Hmac H) :
    Hkdf.expandLoop H m prk info (chunk :: rest) i h = (rangeNext m i).bind fun r =>
      Option.bind (do
          let h ← Hmac.update m h info
          let h ← Hmac.update m h [r.1]
          Hmac.tag m h) fun t =>
        if chunk.length < H.digestSize then do
          assert (chunk.length ≤ t.length)
          some (t.take chunk.length :: rest)
        else (do
          assert (chunk.length == t.length)
          let hmac ← Hmac.new H m prk
          let hmac ← Hmac.update m hmac t
          let rest ← Hkdf.expandLoop H m prk info rest r.2 hmac
          some (t :: rest)) := by
  rw [Hkdf.expandLoop]
  simp only [Option.bind_eq_bind, Option.bind_assoc]

theorem expandLoop_cons_none (L : Lawful H hash R) (D : LawfulD H R) (chunk : Bytes) (rest : List Bytes) (i : U8) (T : Bytes)
    (h : Hmac.Hmac H) (hh : HmacRel hash R prk T h)
    (hT : T.length ≤ H.digestSize) (hi : info.length < 2 ^ 64) (hl : ¬ H.blockSize + T.length + info.length + 1 < 2 ^ 61) :
    Hkdf.expandLoop H .debug prk info (chunk :: rest) i h = none := by
  rw [expandLoop_cons]
  cases rangeNext .debug i with
  | none => rfl
  | some r =>
    rw [Option.bind_some, round_none prk info L D T h hh r.1 hT hi hl]
    rfl

/-- The number of bytes that the longest call on the hash object inside `expand` absorbs, apart from the key block. -/
def longest (size infoLen okmLen : Nat) : Nat := if okmLen = 0 then 0 else (if okmLen ≤ size then 0 else size) + infoLen + 1

theorem expand_debug (L : Lawful H hash R) (D : LawfulD H R) (okm : Bytes) (hk : prk.length < 2 ^ 64) (hi : info.length < 2 ^ 64) :
    Hkdf.expand H .debug prk info okm =
      if H.digestSize ≤ prk.length ∧ prk.length < 2 ^ 61 ∧ okm.length < 254 * H.digestSize ∧
        H.blockSize + longest H.digestSize info.length okm.length < 2 ^ 61
      then some (Spec.hkdfExpand hash H.blockSize prk info okm.length) else none := by
  have hb := L.blockMax
  have hdb := L.digestBlock
  have hd := L.digestPos
  by_cases h1 : prk.length < 2 ^ 61
  swap
  · rw [if_neg (by omega)]
    unfold Hkdf.expand
    rw [new_debug_none L D prk (by omega) hk]
    simp
  by_cases hl : H.blockSize + H.digestSize + info.length + 1 < 2 ^ 61
  · rw [Proofs.expand_spec prk info L .debug okm h1 hl]
    congr 1
    have : H.blockSize + longest H.digestSize info.length okm.length < 2 ^ 61 := by
      unfold longest; split <;> [skip; split] <;> omega
    simp only [true_implies, eq_iff_iff]
    constructor
    · rintro ⟨a, b, c⟩; exact ⟨a, h1, c, this⟩
    · rintro ⟨a, b, c, d⟩; exact ⟨a, by omega, c⟩
  -- `info` has almost `2^61` bytes or more
  unfold Hkdf.expand
  by_cases h0 : H.digestSize ≤ prk.length
  swap
  · rw [if_neg (by omega)]; simp [h0]
  by_cases h2 : okm.length ≤ 255 * H.digestSize
  swap
  · rw [if_neg (by omega)]; simp [h0, h2]
  obtain ⟨h, e, r⟩ := Proofs.hmac_new_spec L .debug prk h1
  simp only [h0, h2, ge_iff_le, decide_true, assert_true, Option.bind_eq_bind, Option.bind_some, true_and, e]
  rw [show (H.digestSize != 0) = true by simp; omega]
  simp only [assert_true, Option.bind_some]
  have hr1 : rangeNext .debug (1 : U8) = some (1, 2) := by decide
  have hr2 : rangeNext .debug (2 : U8) = some (2, 3) := by decide
  by_cases hnil : okm = []
  · subst hnil
    rw [if_pos ⟨h1, by simp; omega, by simp [longest]; omega⟩, chunks_nil]
    rw [Hkdf.expandLoop, hr1]
    simp [Spec.hkdfExpand]
  have hpos : 0 < okm.length := List.length_pos_iff.mpr hnil
  rw [chunks_of_ne_nil hd hnil]
  by_cases h3 : H.blockSize + info.length + 1 < 2 ^ 61
  swap
  · rw [expandLoop_cons_none prk info L D _ _ 1 [] h r (by simp) hi (by simpa using h3), if_neg]
    · rfl
    · unfold longest; rw [if_neg (by omega)]; split <;> omega
  have ht := round_some prk info L .debug [] h r 1 (by simpa using h3)
  have hT : Spec.hmac hash H.blockSize prk ([] ++ info ++ [1]) = Spec.hkdfT hash H.blockSize prk info 1 := rfl
  rw [hT] at ht
  have hTl := Proofs.hkdfT_length prk info L 1 (by omega)
  have hout : ∀ n, n ≤ H.digestSize → Spec.hkdfExpand hash H.blockSize prk info n = (Spec.hkdfT hash H.blockSize prk info 1).take n := by
    intro n hn
    rw [← loopOut_one]
    unfold loopOut
    rw [show 256 - 1 = 254 + 1 from rfl, List.range'_succ, List.flatMap_cons, List.take_append_of_le_length (by omega)]
  rw [expandLoop_cons, hr1, Option.bind_some]
  simp only []
  rw [ht, Option.bind_some]
  by_cases h4 : okm.length ≤ H.digestSize
  · have hc : prk.length < 2 ^ 61 ∧ okm.length < 254 * H.digestSize ∧ H.blockSize + longest H.digestSize info.length okm.length < 2 ^ 61 :=
      ⟨h1, by omega, by unfold longest; rw [if_neg (by omega), if_pos h4]; omega⟩
    rw [if_pos hc, hout _ h4]
    rw [List.drop_of_length_le h4, List.take_of_length_le h4, chunks_nil]
    by_cases h5 : okm.length < H.digestSize
    · rw [if_pos h5, show decide (okm.length ≤ (Spec.hkdfT hash H.blockSize prk info 1).length) = true by simp; omega]
      simp
    · have h6 : okm.length = H.digestSize := by omega
      rw [if_neg h5, hTl, h6]
      obtain ⟨g, e3, r3⟩ := Proofs.hmac_new_spec L .debug prk h1
      obtain ⟨g', e4, r4⟩ := Proofs.hmac_update_spec L .debug prk [] (Spec.hkdfT hash H.blockSize prk info 1) g r3
        (by rw [List.nil_append]; omega)
      simp only [beq_self_eq_true, assert_true, Option.bind_eq_bind, Option.bind_some, e3, e4]
      rw [Hkdf.expandLoop, hr2]
      simp [← hTl]
  · have hc : ¬ (prk.length < 2 ^ 61 ∧ okm.length < 254 * H.digestSize ∧ H.blockSize + longest H.digestSize info.length okm.length < 2 ^ 61) := by
      unfold longest; rw [if_neg (by omega), if_neg h4]; omega
    rw [if_neg hc]
    have htl : (okm.take H.digestSize).length = H.digestSize := by simp; omega
    rw [htl, if_neg (by omega), hTl]
    obtain ⟨g, e3, r3⟩ := Proofs.hmac_new_spec L .debug prk h1
    obtain ⟨g', e4, r4⟩ := Proofs.hmac_update_spec L .debug prk [] (Spec.hkdfT hash H.blockSize prk info 1) g r3
      (by rw [List.nil_append]; omega)
    rw [e3]
    simp only [beq_self_eq_true, assert_true, Option.bind_eq_bind, Option.bind_some]
    rw [e4]
    simp only [Option.bind_some]
    rw [chunks_of_ne_nil hd (by intro e; have := congrArg List.length e; simp at this; omega),
      expandLoop_cons_none prk info L D _ _ 2 _ g' r4 (by rw [List.nil_append]; omega) hi (by rw [List.nil_append]; omega)]
    rfl

end CryptoPure.Proofs.Long
