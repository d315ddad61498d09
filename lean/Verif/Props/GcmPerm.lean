import Verif.Props.AeadGame
import Verif.Proofs.Switch
import Verif.Props.Aes

/-! # C91: GCM over a random permutation -/

namespace CryptoPure.Props
open CryptoPure.Model CryptoPure.Model.Aes CryptoPure.Game CryptoPure.Switch
open Spec.Gcm (bits bytes)
open Proofs.GHashUniversal (bits_bytes bytes_bits)

attribute [local irreducible] toBE

/-- A block cipher object that applies the permutation it holds. -/
@[reducible] def permOracle : BlockCipher where
  State := Equiv.Perm (BitVec 128)
  new := fun _ => none
  permute π x := bytes (π (bits x))

/-- The blocks of a call: the zero block, and the nonce with the counters `1, …, blocks + 1`. -/
def Same (P P' : Bytes → Bytes) (nonce : Bytes) (len : Nat) : Prop :=
  P' (zeros 16) = P (zeros 16) ∧ ∀ i, i < (len + 15) / 16 + 1 → P' (nonce ++ toBE 4 (i + 1)) = P (nonce ++ toBE 4 (i + 1))

theorem crypt_same {P P' : Bytes → Bytes} {nonce x : Bytes} (hn : nonce.length = 12) (h : Same P P' nonce x.length) :
    Spec.Gcm.crypt P' nonce x = Spec.Gcm.crypt P nonce x := by
  refine crypt_congr hn _ _ rfl fun j hj => ?_
  have := h.2 (j + 1) (by omega)
  rw [show j + 1 + 1 = 2 + j by omega] at this
  rw [this]

theorem tag_same {P P' : Bytes → Bytes} (hlen : ∀ x : Bytes, x.length = 16 → (P x).length = 16)
    (hlen' : ∀ x : Bytes, x.length = 16 → (P' x).length = 16) {nonce : Bytes} {n : Nat} (hn : nonce.length = 12)
    (h : Same P P' nonce n) (data ct : Bytes) : Spec.Gcm.tag P' nonce data ct = Spec.Gcm.tag P nonce data ct := by
  refine bits_inj' (tag_length _ hlen' _ _ _ hn) (tag_length _ hlen _ _ _ hn) ?_
  rw [bits_tag _ hlen' _ _ _ hn, bits_tag _ hlen _ _ _ hn, h.1, Proofs.Gcm.J0_eq, h.2 0 (by omega)]

theorem enc_same {E E' : BlockCipher} {st : E.State} {st' : E'.State} (hlen : ∀ x : Bytes, x.length = 16 → (E.permute st x).length = 16)
    (hlen' : ∀ x : Bytes, x.length = 16 → (E'.permute st' x).length = 16) {nonce msg : Bytes}
    (h : nonce.length = 12 → Same (E.permute st) (E'.permute st') nonce msg.length) (m : Mode) (data buffer : Bytes) :
    Model.Gcm.encrypt E' m st' msg nonce data buffer = Model.Gcm.encrypt E m st msg nonce data buffer := by
  by_cases hp : Proofs.Gcm.Permitted msg nonce data buffer ∧ (m = .release ∨ (msg.length + 15) / 16 ≤ 2 ^ 32 - 4)
  · rw [Proofs.Gcm.encrypt_ok E st _ (fun _ _ => rfl) hlen m _ _ _ _ hp.1 hp.2,
      Proofs.Gcm.encrypt_ok E' st' _ (fun _ _ => rfl) hlen' m _ _ _ _ hp.1 hp.2, crypt_same hp.1.1 (h hp.1.1), tag_same hlen hlen' hp.1.1 (h hp.1.1)]
  · rw [Proofs.Gcm.encrypt_none E st _ (fun _ _ => rfl) m _ _ _ _ hp, Proofs.Gcm.encrypt_none E' st' _ (fun _ _ => rfl) m _ _ _ _ hp]

theorem dec_same {E E' : BlockCipher} {st : E.State} {st' : E'.State} (hlen : ∀ x : Bytes, x.length = 16 → (E.permute st x).length = 16)
    (hlen' : ∀ x : Bytes, x.length = 16 → (E'.permute st' x).length = 16) {nonce ct : Bytes}
    (h : nonce.length = 12 → Same (E.permute st) (E'.permute st') nonce ct.length) (m : Mode) (data t buffer : Bytes) :
    Model.Gcm.decrypt E' m st' ct nonce data t buffer = Model.Gcm.decrypt E m st ct nonce data t buffer := by
  by_cases hp : Proofs.Gcm.Permitted ct nonce data buffer
  · rw [Proofs.Gcm.decrypt_eq E st _ (fun _ _ => rfl) hlen m _ _ _ _ _ hp,
      Proofs.Gcm.decrypt_eq E' st' _ (fun _ _ => rfl) hlen' m _ _ _ _ _ hp, crypt_same hp.1 (h hp.1), tag_same hlen hlen' hp.1 (h hp.1)]
  · rw [Proofs.Gcm.decrypt_none E st m _ _ _ _ _ hp, Proofs.Gcm.decrypt_none E' st' m _ _ _ _ _ hp]

theorem permOracle_length (π : Equiv.Perm (BitVec 128)) (x : Bytes) (_ : x.length = 16) : (permOracle.permute π x).length = 16 :=
  Proofs.Gcm.bytes_length _

/-- The block function of a permutation gives the same GCM. -/
theorem perm_enc (m : Mode) (π : Equiv.Perm (BitVec 128)) :
    (gcmScheme permOracle m).enc π = (gcmScheme oracle m).enc π := by
  funext msg nonce data buffer
  exact enc_same (oracle_length _) (permOracle_length π) (fun _ => ⟨rfl, fun _ _ => rfl⟩) m data buffer

theorem perm_dec (m : Mode) (π : Equiv.Perm (BitVec 128)) :
    (gcmScheme permOracle m).dec π = (gcmScheme oracle m).dec π := by
  funext ct nonce data t buffer
  exact dec_same (oracle_length _) (permOracle_length π) (fun _ => ⟨rfl, fun _ _ => rfl⟩) m data t buffer

theorem play_congr {K K' : Type} {S : Scheme K} {S' : Scheme K'} {k : K} {k' : K'} (h1 : S.enc k = S'.enc k') (h2 : S.dec k = S'.dec k')
    (right : Bool) (A : Adversary) (log : Log) : play S right k A log = play S' right k' A log := by
  induction A generalizing log with
  | stop g => rfl
  | encrypt nonce data msg msg' buffer next ih =>
    unfold play
    rw [h1]
    simp only [ih]
  | decrypt nonce data ct t buffer next ih =>
    unfold play
    rw [h2]
    simp only [ih]

theorem forges_congr {K K' : Type} {S : Scheme K} {S' : Scheme K'} {k : K} {k' : K'} (h1 : S.enc k = S'.enc k') (h2 : S.dec k = S'.dec k')
    (right : Bool) (A : Adversary) (log : Log) : forges S right k A log = forges S' right k' A log := by
  induction A generalizing log with
  | stop g => rfl
  | encrypt nonce data msg msg' buffer next ih =>
    unfold forges
    rw [h1]
    simp only [ih]
  | decrypt nonce data ct t buffer next ih =>
    unfold forges
    rw [h2]
    simp only [ih]

/-- Whatever the answers, GCM calls the block cipher at most `s` times in a game with this adversary (two calls and one more per
block of the message). -/
def BlockCalls : Adversary → Nat → Prop
  | .stop _, _ => True
  | .encrypt _ _ msg _ _ next, s => ∃ s', s = (msg.length + 15) / 16 + 2 + s' ∧ ∀ r, BlockCalls (next r) s'
  | .decrypt _ _ ct _ _ next, s => ∃ s', s = (ct.length + 15) / 16 + 2 + s' ∧ ∀ r, BlockCalls (next r) s'

theorem call_queries {R : Type} (nonce : Bytes) (len : Nat) (f : BlockFunction → R)
    (h : ∀ F F' : BlockFunction, Same (oracle.permute F) (oracle.permute F') nonce len → f F' = f F) :
    Queries ((len + 15) / 16 + 2) f := by
  have := Queries.of_local (bits (zeros 16) :: (List.range ((len + 15) / 16 + 1)).map fun i => bits (nonce ++ toBE 4 (i + 1))) f (by
    intro F F' hx
    refine h F' F ⟨congrArg bytes (hx _ (by simp)), fun i hi => congrArg bytes (hx _ ?_)⟩
    exact List.mem_cons_of_mem _ (List.mem_map.mpr ⟨i, List.mem_range.mpr hi, rfl⟩))
  simpa using this

theorem enc_queries (m : Mode) (msg nonce data buffer : Bytes) :
    Queries ((msg.length + 15) / 16 + 2) (fun F => (gcmScheme oracle m).enc F msg nonce data buffer) :=
  call_queries nonce msg.length _ fun F F' h => enc_same (oracle_length F) (oracle_length F') (fun _ => h) m data buffer

theorem dec_queries (m : Mode) (ct nonce data t buffer : Bytes) :
    Queries ((ct.length + 15) / 16 + 2) (fun F => (gcmScheme oracle m).dec F ct nonce data t buffer) :=
  call_queries nonce ct.length _ fun F F' h => dec_same (oracle_length F) (oracle_length F') (fun _ => h) m data t buffer

theorem play_queries (m : Mode) (right : Bool) (A : Adversary) (s : Nat) (hA : BlockCalls A s) (log : Log) :
    Queries s (fun F => play (gcmScheme oracle m) right F A log) := by
  induction A generalizing s log with
  | stop g => exact .const _ _
  | encrypt nonce data msg msg' buffer next ih =>
    obtain ⟨s', rfl, h⟩ := hA
    unfold play
    by_cases hr : nonce ∈ log.map Prod.fst ∨ msg.length ≠ msg'.length
    · simp only [if_pos hr]
      exact (ih _ _ (h _) _).mono (by omega)
    · simp only [if_neg hr]
      have hl : (if right = true then msg' else msg).length = msg.length := by
        rw [not_or, not_not] at hr
        split
        · exact hr.2.symm
        · rfl
      have := (enc_queries m (if right = true then msg' else msg) nonce data buffer).bind (q' := s') (fun r F => match r with
        | none => play (gcmScheme oracle m) right F (next none) log
        | some (ct, t) => play (gcmScheme oracle m) right F (next (some (ct, t))) ((nonce, data, ct, t) :: log)) (by
          intro r
          match r with
          | none => exact ih _ _ (h _) _
          | some (ct, t) => exact ih _ _ (h _) _)
      rw [hl] at this
      exact this
  | decrypt nonce data ct t buffer next ih =>
    obtain ⟨s', rfl, h⟩ := hA
    unfold play
    by_cases hr : (nonce, data, ct, t) ∈ log
    · simp only [if_pos hr]
      exact (ih _ _ (h _) _).mono (by omega)
    · simp only [if_neg hr]
      exact (dec_queries m ct nonce data t buffer).bind (q' := s') (fun r F => play (gcmScheme oracle m) right F (next r) log)
        fun r => ih _ _ (h _) _

theorem forges_queries (m : Mode) (right : Bool) (A : Adversary) (s : Nat) (hA : BlockCalls A s) (log : Log) :
    Queries s (fun F => forges (gcmScheme oracle m) right F A log) := by
  induction A generalizing s log with
  | stop g => exact .const _ _
  | encrypt nonce data msg msg' buffer next ih =>
    obtain ⟨s', rfl, h⟩ := hA
    unfold forges
    by_cases hr : nonce ∈ log.map Prod.fst ∨ msg.length ≠ msg'.length
    · simp only [if_pos hr]
      exact (ih _ _ (h _) _).mono (by omega)
    · simp only [if_neg hr]
      have hl : (if right = true then msg' else msg).length = msg.length := by
        rw [not_or, not_not] at hr
        split
        · exact hr.2.symm
        · rfl
      have := (enc_queries m (if right = true then msg' else msg) nonce data buffer).bind (q' := s') (fun r F => match r with
        | none => forges (gcmScheme oracle m) right F (next none) log
        | some (ct, t) => forges (gcmScheme oracle m) right F (next (some (ct, t))) ((nonce, data, ct, t) :: log)) (by
          intro r
          match r with
          | none => exact ih _ _ (h _) _
          | some (ct, t) => exact ih _ _ (h _) _)
      rw [hl] at this
      exact this
  | decrypt nonce data ct t buffer next ih =>
    obtain ⟨s', rfl, h⟩ := hA
    unfold forges
    by_cases hr : (nonce, data, ct, t) ∈ log
    · simp only [if_pos hr]
      exact (ih _ _ (h _) _).mono (by omega)
    · simp only [if_neg hr]
      exact (dec_queries m ct nonce data t buffer).bind (q' := s') (fun r F => (∃ out, r = some (out, true)) ∨
        forges (gcmScheme oracle m) right F (next r) log) fun r => (ih _ _ (h _) _).map (fun p => (∃ out, r = some (out, true)) ∨ p)

theorem card_block : Nat.card (BitVec 128) = 2 ^ 128 := by
  rw [Nat.card_eq_of_bijective (BitVec.toFin (w := 128)) ⟨fun _ _ h => BitVec.toFin_inj.mp h, fun x => ⟨⟨x⟩, rfl⟩⟩]
  simp

/-- C91. Forgery, as in C89, with a random permutation of the blocks in place of the block cipher: with at most `s` calls of the
block cipher the probability is at most `a n / 2^128 + s (s - 1) / 2^129`. -/
theorem C91_gcm_permutation_forgery (m : Mode) (A : Adversary) (a n s : Nat) (hn : n ≤ 2 ^ 32 - 3) (hA : Within authCount n A a)
    (hs : BlockCalls A s) (right : Bool) :
    prob (fun π => forges (gcmScheme permOracle m) right π A []) ≤ a * n / 2 ^ 128 + s * (s - 1) / 2 ^ 129 := by
  have h1 := C89_gcm_adaptive_forgery m A a n hn hA right
  have h2 := switch (forges_queries m right A s hs [])
  rw [card_block] at h2
  have e : prob (fun π => forges (gcmScheme permOracle m) right π A []) =
      prob (fun π : Equiv.Perm (BitVec 128) => forges (gcmScheme oracle m) right π A []) := by
    unfold prob
    congr 3
    ext π
    show forges (gcmScheme permOracle m) right π A [] ↔ forges (gcmScheme oracle m) right π A []
    rw [forges_congr (perm_enc m π) (perm_dec m π)]
  rw [e]
  have h3 := (abs_le.mp h2).1
  have e2 : (s * (s - 1) / 2 : ℚ) / ((2 ^ 128 : Nat) : ℚ) = s * (s - 1) / 2 ^ 129 := by
    push_cast; rw [div_div]; norm_num
  rw [e2] at h3
  linarith

/-- C91. Confidentiality, as in C89, with a random permutation: the advantage is at most `2 a n / 2^128 + s (s - 1) / 2^128`. -/
theorem C91_gcm_permutation_confidentiality (m : Mode) (A : Adversary) (a n s : Nat) (hn : n ≤ 2 ^ 32 - 3) (hA : Within authCount n A a)
    (hs : BlockCalls A s) :
    |prob (fun π => play (gcmScheme permOracle m) false π A [] = true) - prob (fun π => play (gcmScheme permOracle m) true π A [] = true)| ≤
      2 * (a * n / 2 ^ 128) + s * (s - 1) / 2 ^ 128 := by
  have h1 := C89_gcm_adaptive_confidentiality m A a n hn hA
  have h2 := fun right => switch ((play_queries m right A s hs []).map (· = true))
  rw [card_block] at h2
  have e : ∀ right, prob (fun π => play (gcmScheme permOracle m) right π A [] = true) =
      prob (fun π : Equiv.Perm (BitVec 128) => play (gcmScheme oracle m) right π A [] = true) := by
    intro right
    unfold prob
    congr 3
    ext π
    show play (gcmScheme permOracle m) right π A [] = true ↔ play (gcmScheme oracle m) right π A [] = true
    rw [play_congr (perm_enc m π) (perm_dec m π)]
  rw [e, e]
  have e2 : (s * (s - 1) / 2 : ℚ) / ((2 ^ 128 : Nat) : ℚ) = s * (s - 1) / 2 ^ 128 / 2 := by
    push_cast; rw [div_div, div_div, mul_comm (2 : ℚ)]; norm_num
  simp only [e2] at h2
  have h3 := abs_le.mp (h2 false)
  have h4 := abs_le.mp (h2 true)
  have h5 := abs_le.mp h1
  rw [abs_le]
  constructor <;> linarith [h3.1, h3.2, h4.1, h4.2, h5.1, h5.2]

/-- C91. AES with a key is such a permutation, and AES-GCM of the code is GCM over it. -/
theorem C91_aes_gcm_is_an_instance (k : AesKind) (key : Bytes) (st : k.code.State) (h : k.code.new key = some st) :
    ∃ π : Equiv.Perm (BitVec 128), ∀ (m : Mode) (right : Bool) (A : Adversary),
      play (gcmScheme k.code m) right st A [] = play (gcmScheme permOracle m) right π A [] ∧
      (forges (gcmScheme k.code m) right st A [] ↔ forges (gcmScheme permOracle m) right π A []) := by
  have hlen := C16_length k key st h
  have hbij : Function.Bijective (fun x : BitVec 128 => bits (k.code.permute st (bytes x))) := by
    constructor
    · intro x y e
      have hx := Proofs.Gcm.bytes_length x
      have hy := Proofs.Gcm.bytes_length y
      have e' := bits_inj' (hlen _ hx) (hlen _ hy) e
      have := (C16_permutation k key st h _ (hlen _ hy)).unique ⟨hx, e'⟩ ⟨hy, rfl⟩
      rw [← bits_bytes x, this, bits_bytes]
    · intro y
      obtain ⟨x, ⟨hx, e⟩, -⟩ := C16_permutation k key st h (bytes y) (Proofs.Gcm.bytes_length y)
      refine ⟨bits x, ?_⟩
      show bits (k.code.permute st (bytes (bits x))) = y
      rw [bytes_bits x hx, e, bits_bytes]
  refine ⟨Equiv.ofBijective _ hbij, fun m right A => ?_⟩
  have hp : ∀ x : Bytes, x.length = 16 → permOracle.permute (Equiv.ofBijective _ hbij) x = k.code.permute st x := by
    intro x hx
    show bytes (bits (k.code.permute st (bytes (bits x)))) = _
    rw [bytes_bits x hx, bytes_bits _ (hlen x hx)]
  have e1 : (gcmScheme k.code m).enc st = (gcmScheme permOracle m).enc (Equiv.ofBijective _ hbij) := by
    funext msg nonce data buffer
    exact enc_same (permOracle_length _) hlen (fun hn => ⟨(hp _ (by simp)).symm, fun i _ => (hp _ (by simp [hn])).symm⟩) m data buffer
  have e2 : (gcmScheme k.code m).dec st = (gcmScheme permOracle m).dec (Equiv.ofBijective _ hbij) := by
    funext ct nonce data t buffer
    exact dec_same (permOracle_length _) hlen (fun hn => ⟨(hp _ (by simp)).symm, fun i _ => (hp _ (by simp [hn])).symm⟩) m data t buffer
  exact ⟨play_congr e1 e2 right A [], by rw [forges_congr e1 e2]⟩

theorem flipLastBit_calls : BlockCalls flipLastBit 8 := by
  refine ⟨4, by decide, fun r => ?_⟩
  match r with
  | none => trivial
  | some (ct, t) =>
    have h : (xorBytes (ct.take 20) (zeros 19 ++ [1])).length ≤ 20 := by simp
    refine ⟨4 - ((xorBytes (ct.take 20) (zeros 19 ++ [1])).length + 15) / 16 - 2, ?_, fun _ => trivial⟩
    omega

example : prob (fun π => forges (gcmScheme permOracle .debug) true π flipLastBit []) ≤ 4 / 2 ^ 128 + 56 / 2 ^ 129 := by
  have := C91_gcm_permutation_forgery .debug flipLastBit 1 4 8 (by norm_num) flipLastBit_within flipLastBit_calls true
  norm_num at this ⊢
  exact this

/-! ## Further concrete cases -/

example : |prob (fun π => play (gcmScheme permOracle .debug) false π flipLastBit [] = true) -
    prob (fun π => play (gcmScheme permOracle .debug) true π flipLastBit [] = true)| ≤ 2 * (1 * 4 / 2 ^ 128) + 8 * (8 - 1) / 2 ^ 128 := by
  simpa using C91_gcm_permutation_confidentiality .debug flipLastBit 1 4 8 (by norm_num) flipLastBit_within flipLastBit_calls

example : ∃ st, Aes128.new (zeros 16) = some st ∧ ∃ π : Equiv.Perm (BitVec 128), ∀ (m : Mode) (right : Bool) (A : Adversary),
    play (gcmScheme Aes128 m) right st A [] = play (gcmScheme permOracle m) right π A [] := by
  obtain ⟨st, h⟩ : ∃ st, Aes128.new (zeros 16) = some st := ⟨_, rfl⟩
  obtain ⟨π, hπ⟩ := C91_aes_gcm_is_an_instance .aes128 (zeros 16) st h
  exact ⟨st, h, π, fun m r A => (hπ m r A).1⟩

end CryptoPure.Props
