import Verif.Props.Hmac

/-! # Property C95: HMAC and HKDF over a hash function of the caller's own

`HashFunction` is a public trait, and `Hmac`, `hmac::verify`, `hkdf::extract` and `hkdf::expand` take any implementor. -/

namespace CryptoPure.Props
open CryptoPure.Model CryptoPure.Model.Sha2

/-- `H` computes the function `hash` in build mode `m`: a default object, fed any pieces with fewer than `2^61` bytes in
all, writes the hash of their concatenation into a buffer of the digest size. -/
def Computes (H : HashFunction) (m : Mode) (hash : Bytes → Bytes) : Prop :=
  ∀ (parts : List Bytes) (out : Bytes), parts.flatten.length < 2 ^ 61 → out.length = H.digestSize →
    (do let s ← parts.foldlM (H.update m) H.default; H.writeDigest m s out) = some (hash parts.flatten)

/-- The sizes HMAC can work with: a digest of 1 to 64 bytes that is no longer than a block. -/
structure Sizes (H : HashFunction) (hash : Bytes → Bytes) : Prop where
  digest : ∀ msg, (hash msg).length = H.digestSize
  pos : 0 < H.digestSize
  max : H.digestSize ≤ 64
  block : H.digestSize ≤ H.blockSize
  blockMax : H.blockSize ≤ 2 ^ 32

/-- `H` with the build mode fixed. -/
def fixMode (H : HashFunction) (m : Mode) : HashFunction :=
  { H with update := fun _ => H.update m, writeDigest := fun _ => H.writeDigest m }

theorem fixMode_lawful {H : HashFunction} {m : Mode} {hash : Bytes → Bytes} (hc : Computes H m hash)
    (hs : Sizes H hash) :
    Proofs.Lawful (fixMode H m) hash
      (fun msg s => ∃ parts : List Bytes, parts.flatten = msg ∧ parts.foldlM (H.update m) H.default = some s) where
  init := ⟨[], rfl, rfl⟩
  update := by
    rintro m' msg s x ⟨parts, rfl, hp⟩ hl
    have h := hc (parts ++ [x]) (zeros H.digestSize) (by simpa using hl) (by simp)
    simp only [Option.bind_eq_bind, Option.bind_eq_some_iff] at h
    obtain ⟨s', h, -⟩ := h
    refine ⟨s', ?_, parts ++ [x], by simp, h⟩
    rw [List.foldlM_append, hp] at h
    have h : (H.update m s x).bind pure = some s' := h
    cases hu : H.update m s x with
    | none => rw [hu] at h; cases h
    | some s'' =>
      rw [hu] at h
      exact hu.trans h
  finish := by
    rintro m' msg s out ⟨parts, rfl, hp⟩ hl ho
    have h := hc parts out hl ho
    rw [hp] at h
    exact h
  hashLen := hs.digest
  digestPos := hs.pos
  digestMax := hs.max
  digestBlock := hs.block
  blockMax := hs.blockMax

/-- The same object seen as one over `H`. -/
def castH {H : HashFunction} {m : Mode} (h : Hmac.Hmac (fixMode H m)) : Hmac.Hmac H := ⟨h.inner, h.outer⟩

theorem new_fix (H : HashFunction) (m : Mode) (key : Bytes) :
    Hmac.new H m key = (Hmac.new (fixMode H m) m key).map castH := by
  have hk : ∀ (k : Bytes) (p : U8), Hmac.keyedHashFunction H m k p = Hmac.keyedHashFunction (fixMode H m) m k p :=
    fun _ _ => rfl
  have main : ∀ k : Bytes, (do
      let i ← Hmac.keyedHashFunction H m k 0x36
      let o ← Hmac.keyedHashFunction H m k 0x5c
      some ({ inner := i, outer := o } : Hmac.Hmac H)) = (do
      let i ← Hmac.keyedHashFunction (fixMode H m) m k 0x36
      let o ← Hmac.keyedHashFunction (fixMode H m) m k 0x5c
      some ({ inner := i, outer := o } : Hmac.Hmac (fixMode H m))).map castH := by
    intro k
    rw [hk, hk]
    cases Hmac.keyedHashFunction (fixMode H m) m k 0x36 with
    | none => rfl
    | some a => cases Hmac.keyedHashFunction (fixMode H m) m k 0x5c <;> rfl
  unfold Hmac.new
  simp only [Option.bind_eq_bind] at main ⊢
  change (if key.length > H.blockSize then _ else _) = Option.map castH (if key.length > H.blockSize then _ else _)
  split
  · change Option.bind _ _ = Option.map castH (Option.bind (H.update m H.default key) fun s =>
      (assert (decide (H.digestSize ≤ maxDigestSize))).bind fun _ => (H.writeDigest m s (zeros H.digestSize)).bind _)
    cases H.update m H.default key with
    | none => rfl
    | some s =>
      simp only [Option.bind_some]
      cases assert (decide (H.digestSize ≤ maxDigestSize)) with
      | none => rfl
      | some u =>
        simp only [Option.bind_some]
        cases H.writeDigest m s (zeros H.digestSize) with
        | none => rfl
        | some k => exact main k
  · exact main key

theorem update_fix (H : HashFunction) (m : Mode) (h : Hmac.Hmac (fixMode H m)) (x : Bytes) :
    Hmac.update m (castH h) x = (Hmac.update m h x).map castH := by
  unfold Hmac.update
  simp only [Option.bind_eq_bind, Option.map_bind]
  rfl

theorem updates_fix (H : HashFunction) (m : Mode) (parts : List Bytes) (h : Hmac.Hmac (fixMode H m)) :
    parts.foldlM (Hmac.update m) (castH h) = (parts.foldlM (Hmac.update m) h).map castH := by
  induction parts generalizing h with
  | nil => rfl
  | cons p ps ih =>
    simp only [List.foldlM_cons, Option.bind_eq_bind, update_fix]
    cases Hmac.update m h p with
    | none => rfl
    | some h' => exact ih h'

theorem tag_fix (H : HashFunction) (m : Mode) (h : Hmac.Hmac (fixMode H m)) : Hmac.tag m (castH h) = Hmac.tag m h := rfl

theorem verify_fix (H : HashFunction) (m : Mode) (key msg tag : Bytes) :
    Hmac.verify H m key msg tag = Hmac.verify (fixMode H m) m key msg tag := by
  unfold Hmac.verify
  simp only [Option.bind_eq_bind, new_fix H m key]
  cases Hmac.new (fixMode H m) m key with
  | none => rfl
  | some h =>
    simp only [Option.map_some, Option.bind_some, update_fix]
    cases Hmac.update m h msg <;> rfl

theorem extract_fix (H : HashFunction) (m : Mode) (salt ikm prk : Bytes) :
    Hkdf.extract H m salt ikm prk = Hkdf.extract (fixMode H m) m salt ikm prk := by
  unfold Hkdf.extract
  simp only [Option.bind_eq_bind, new_fix H m salt]
  cases Hmac.new (fixMode H m) m salt with
  | none => rfl
  | some h =>
    simp only [Option.map_some, Option.bind_some, update_fix]
    cases Hmac.update m h ikm <;> rfl

theorem expandLoop_fix (H : HashFunction) (m : Mode) (prk info : Bytes) (cs : List Bytes) (i : U8)
    (h : Hmac.Hmac (fixMode H m)) :
    Hkdf.expandLoop H m prk info cs i (castH h) = Hkdf.expandLoop (fixMode H m) m prk info cs i h := by
  induction cs generalizing i h with
  | nil => rfl
  | cons c cs ih =>
    unfold Hkdf.expandLoop
    simp only [Option.bind_eq_bind, new_fix H m prk, update_fix]
    cases rangeNext m i with
    | none => rfl
    | some r =>
      simp only [Option.bind_some]
      cases Hmac.update m h info with
      | none => rfl
      | some h1 =>
        simp only [Option.map_some, Option.bind_some, update_fix]
        cases Hmac.update m h1 [r.1] with
        | none => rfl
        | some h2 =>
          simp only [Option.map_some, Option.bind_some, tag_fix]
          cases Hmac.tag m h2 with
          | none => rfl
          | some t =>
            simp only [Option.bind_some]
            change (if c.length < H.digestSize then _ else _) = if c.length < H.digestSize then _ else _
            split
            · rfl
            · cases assert (c.length == t.length) with
              | none => rfl
              | some u =>
                simp only [Option.bind_some]
                cases Hmac.new (fixMode H m) m prk with
                | none => rfl
                | some h3 =>
                  simp only [Option.map_some, Option.bind_some, update_fix]
                  cases Hmac.update m h3 t with
                  | none => rfl
                  | some h4 =>
                    simp only [Option.map_some, Option.bind_some, ih]

theorem expand_fix (H : HashFunction) (m : Mode) (prk info okm : Bytes) :
    Hkdf.expand H m prk info okm = Hkdf.expand (fixMode H m) m prk info okm := by
  unfold Hkdf.expand
  simp only [Option.bind_eq_bind, new_fix H m prk]
  change ((assert (decide (H.digestSize ≤ prk.length))).bind fun _ => (assert (decide (255 * H.digestSize ≥ okm.length))).bind
    fun _ => _) = (assert (decide (H.digestSize ≤ prk.length))).bind fun _ =>
      (assert (decide (255 * H.digestSize ≥ okm.length))).bind fun _ => _
  refine congrArg _ (funext fun _ => congrArg _ (funext fun _ => ?_))
  cases Hmac.new (fixMode H m) m prk with
  | none => rfl
  | some h =>
    simp only [Option.map_some, Option.bind_some, expandLoop_fix]
    rfl

/-- HMAC over the caller's hash function, whatever way the message is split, is RFC 2104 HMAC. -/
theorem C95_hmac (H : HashFunction) (m : Mode) (hash : Bytes → Bytes) (hc : Computes H m hash) (hs : Sizes H hash)
    (key : Bytes) (parts : List Bytes) (hk : key.length < 2 ^ 61) (hl : H.blockSize + parts.flatten.length < 2 ^ 61) :
    (do let h ← Hmac.new H m key
        let h ← parts.foldlM (Hmac.update m) h
        Hmac.tag m h) = some (Spec.hmac hash H.blockSize key parts.flatten) := by
  obtain ⟨h, e1, r1⟩ := Proofs.hmac_new_spec (fixMode_lawful hc hs) m key hk
  obtain ⟨h2, e2, r2⟩ := Proofs.hmac_updates_spec (fixMode_lawful hc hs) m key parts [] h r1
    (by rw [List.nil_append]; exact hl)
  rw [new_fix, e1]
  simp only [Option.bind_eq_bind, Option.map_some, Option.bind_some]
  rw [updates_fix, e2]
  simp only [Option.map_some, Option.bind_some]
  exact Proofs.hmac_tag_spec (fixMode_lawful hc hs) m key _ h2 r2 hl

/-- `hmac::verify` over the caller's hash function accepts exactly the RFC 2104 tag. -/
theorem C95_verify (H : HashFunction) (m : Mode) (hash : Bytes → Bytes) (hc : Computes H m hash) (hs : Sizes H hash)
    (key msg tag : Bytes) (hk : key.length < 2 ^ 61) (hl : H.blockSize + msg.length < 2 ^ 61) :
    Hmac.verify H m key msg tag = some (decide (tag = Spec.hmac hash H.blockSize key msg)) := by
  rw [verify_fix, Proofs.hmac_verify_spec (fixMode_lawful hc hs) m key msg tag hk hl]
  congr 1
  exact decide_eq_decide.mpr eq_comm

/-- `hkdf::extract` and `hkdf::expand` over the caller's hash function are those of RFC 5869; they panic on the
documented length errors and, with overflow checks, when 254 digests or more are asked for. -/
theorem C95_hkdf (H : HashFunction) (m : Mode) (hash : Bytes → Bytes) (hc : Computes H m hash) (hs : Sizes H hash)
    (salt ikm prk info okm : Bytes) (hk : salt.length < 2 ^ 61) (hi : H.blockSize + ikm.length < 2 ^ 61)
    (hp : prk.length < 2 ^ 61) (hl : info.length < 2 ^ 60) :
    (Hkdf.extract H m salt ikm prk =
      if prk.length = H.digestSize then some (Spec.hkdfExtract hash H.blockSize salt ikm) else none) ∧
    Hkdf.expand H m prk info okm =
      if H.digestSize ≤ prk.length ∧ okm.length ≤ 255 * H.digestSize ∧ (m = .debug → okm.length < 254 * H.digestSize)
      then some (Spec.hkdfExpand hash H.blockSize prk info okm.length) else none := by
  rw [extract_fix, expand_fix]
  have h1 := hs.max
  have h2 := hs.blockMax
  refine ⟨Proofs.extract_spec (fixMode_lawful hc hs) m salt ikm prk hk hi, ?_⟩
  refine Proofs.expand_spec prk info (fixMode_lawful hc hs) m okm hp ?_
  change H.blockSize + H.digestSize + info.length + 1 < 2 ^ 61
  omega

/-- A digest of more than 64 bytes: `Hmac::tag`, `hmac::verify`, `hkdf::extract` and any `hkdf::expand` with output
panic on every input, whatever the hash function does. -/
theorem C95_long_digest (H : HashFunction) (hd : 64 < H.digestSize) (m : Mode) (key msg tag salt ikm prk info okm : Bytes)
    (h : Hmac.Hmac H) (ho : okm ≠ []) :
    Hmac.tag m h = none ∧ Hmac.verify H m key msg tag = none ∧ Hkdf.extract H m salt ikm prk = none ∧
    Hkdf.expand H m prk info okm = none := by
  have ht : ∀ h : Hmac.Hmac H, Hmac.tag m h = none := by
    intro h
    unfold Hmac.tag
    rw [show decide (H.digestSize ≤ maxDigestSize) = false from decide_eq_false (Nat.not_le.mpr hd)]
    rfl
  refine ⟨ht h, ?_, ?_, ?_⟩
  · unfold Hmac.verify
    simp [ht]
  · unfold Hkdf.extract
    simp [ht]
  · unfold Hkdf.expand
    rw [chunks_of_ne_nil (by omega) ho]
    unfold Hkdf.expandLoop
    simp [ht]

/-- A caller's hash function that meets the hypotheses: the object keeps what it was fed, and the digest is the first
byte of the input (0 for the empty input) followed by the length modulo 256; blocks of 144 bytes. -/
def toyHash : HashFunction where
  State := Bytes
  digestSize := 2
  blockSize := 144
  default := []
  update _ s x := some (s ++ x)
  writeDigest _ s _ := some [s.headD 0, BitVec.ofNat 8 s.length]

theorem toy_computes (m : Mode) : Computes toyHash m (fun x => [x.headD 0, BitVec.ofNat 8 x.length]) := by
  have : ∀ (parts : List Bytes) (s : Bytes), parts.foldlM (toyHash.update m) s = some (s ++ parts.flatten) := by
    intro parts
    induction parts with
    | nil => intro s; exact congrArg some (List.append_nil s).symm
    | cons p ps ih =>
      intro s
      change (some (s ++ p)).bind (fun s => ps.foldlM (toyHash.update m) s) = _
      rw [Option.bind_some, ih, List.flatten_cons, List.append_assoc]
  intro parts out _ _
  have h := this parts []
  change (List.foldlM (toyHash.update m) ([] : Bytes) parts).bind (fun s => toyHash.writeDigest m s out) = _
  rw [h]
  rfl

example : Hmac.verify toyHash .debug [1] [2, 3] (Spec.hmac (fun x => [x.headD 0, BitVec.ofNat 8 x.length]) 144 [1] [2, 3]) =
    some true := by
  rw [C95_verify toyHash .debug _ (toy_computes .debug)
    ⟨fun _ => rfl, by decide, by decide, by decide, by decide⟩ [1] [2, 3] _ (by simp) (by simp [toyHash])]
  simp [toyHash]

/-- The four SHA-2 objects compute their FIPS 180-4 functions in this sense. -/
example (v : Variant) (m : Mode) : Computes v.code m v.fips ∧ Sizes v.code v.fips := by
  refine ⟨fun parts out hl ho => ?_, ?_⟩
  · rw [v.digestSize_eq] at ho
    exact C03_split_fips v m parts out ho hl
  · have L := v.lawful
    exact ⟨L.hashLen, L.digestPos, L.digestMax, L.digestBlock, L.blockMax⟩

/-- `C95_long_digest` applies to an object with 65-byte digests. -/
def longHash : HashFunction where
  State := Bytes
  digestSize := 65
  blockSize := 144
  default := []
  update _ s x := some (s ++ x)
  writeDigest _ s _ := some ((s ++ zeros 65).take 65)

example : Hmac.verify longHash .release [1] [2] [3] = none :=
  (C95_long_digest longHash (by decide) .release [1] [2] [3] [] [] [] [] [0] ⟨([] : Bytes), ([] : Bytes)⟩ (by simp)).2.1

/-! ## Further concrete cases -/

theorem toyHash_sizes : Sizes toyHash (fun x => [x.headD 0, BitVec.ofNat 8 x.length]) :=
  ⟨fun _ => rfl, by decide, by decide, by decide, by decide⟩

example : (do let h ← Hmac.new toyHash .debug [1]
              let h ← [[2], [], [3, 4]].foldlM (Hmac.update .debug) h
              Hmac.tag .debug h) = some (Spec.hmac (fun x => [x.headD 0, BitVec.ofNat 8 x.length]) 144 [1] [2, 3, 4]) :=
  C95_hmac toyHash .debug _ (toy_computes .debug) toyHash_sizes [1] [[2], [], [3, 4]] (by simp) (by decide)

/-- With digests of two bytes at most 510 bytes can be derived, with overflow checks fewer than 508. -/
example : Hkdf.expand toyHash .debug [1, 2] [9] (zeros 508) = none := by
  rw [(C95_hkdf toyHash .debug _ (toy_computes .debug) toyHash_sizes [] [] [1, 2] [9] (zeros 508) (by simp) (by decide) (by simp) (by simp)).2,
      if_neg (by simp [toyHash])]

end CryptoPure.Props
