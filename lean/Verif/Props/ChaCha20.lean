import Verif.Proofs.ChaCha20

/-! # Properties C25–C28: the ChaCha20 stream -/

namespace CryptoPure.Props
open CryptoPure.Model CryptoPure.Model.ChaCha20

/-- Call `next` `n` times, collecting the bytes. -/
def nextBytes (m : Mode) : Nat → Stream → Option (Bytes × Stream)
  | 0, s => some ([], s)
  | n + 1, s => do
    let (b, s) ← s.next m
    let (bs, s) ← nextBytes m n s
    some (b :: bs, s)

/-- Byte `i` of the RFC 8439 keystream: byte `i mod 64` of the block with counter `i div 64` (a 32-bit word). -/
def rfcByte (key nonce : Bytes) (i : Nat) : U8 :=
  (Spec.ChaCha20.block key (BitVec.ofNat 32 (i / 64)) nonce).getD (i % 64) 0

theorem new_some {key nonce : Bytes} {s : Stream} (h : Stream.new key nonce = some s) :
    key.length = 32 ∧ nonce.length = 12 ∧ s = Proofs.ChaCha20.streamAt key nonce 0 := by
  by_cases hl : key.length = 32 ∧ nonce.length = 12
  · rw [Proofs.ChaCha20.new_eq key nonce hl.1 hl.2] at h
    exact ⟨hl.1, hl.2, (Option.some.inj h).symm⟩
  · unfold Stream.new at h
    rw [Proofs.ChaCha20.new_none key nonce hl] at h
    cases h

theorem nextBytes_ok (key nonce : Bytes) (hk : key.length = 32) (hn : nonce.length = 12) (m : Mode) (k n : Nat)
    (h : m = .release ∨ n + k ≤ 2 ^ 38) :
    nextBytes m k (Proofs.ChaCha20.streamAt key nonce n) =
      some (Proofs.ChaCha20.ks key nonce n k, Proofs.ChaCha20.streamAt key nonce (n + k)) := by
  induction k generalizing n with
  | zero => rfl
  | succ k ih =>
    rw [nextBytes, Proofs.ChaCha20.next_ok key nonce hk hn m n (h.imp id (by omega))]
    simp only [Option.bind_eq_bind, Option.bind_some]
    rw [ih (n + 1) (h.imp id (by omega))]
    simp only [Option.bind_some]
    rw [Proofs.ChaCha20.ks_succ, show n + 1 + k = n + (k + 1) by omega]

/-! ## C25 -/

/-- The bytes yielded by a new stream are the RFC 8439 keystream. -/
theorem C25_stream_bytes (key nonce : Bytes) (s : Stream) (h : Stream.new key nonce = some s) (m : Mode) (n : Nat)
    (hm : m = .release ∨ n ≤ 2 ^ 38) :
    ∃ s', nextBytes m n s = some ((List.range n).map (rfcByte key nonce), s') := by
  obtain ⟨hk, hn, rfl⟩ := new_some h
  refine ⟨Proofs.ChaCha20.streamAt key nonce (0 + n),
    (nextBytes_ok key nonce hk hn m n 0 (hm.imp id (by omega))).trans ?_⟩
  unfold Proofs.ChaCha20.ks
  simp only [Nat.zero_add]
  rfl

/-- An RFC block has 64 bytes (so the default in `rfcByte` is never used). -/
theorem C25_block_length (key nonce : Bytes) (c : U32) : (Spec.ChaCha20.block key c nonce).length = 64 :=
  Proofs.ChaCha20.spec_block_length key c nonce

/-- RFC 8439 §2.3.2: the first 16 bytes of the block with counter 1. -/
example : (Spec.ChaCha20.block ((List.range 32).map (BitVec.ofNat 8)) 1
      [0, 0, 0, 9, 0, 0, 0, 0x4a, 0, 0, 0, 0]).take 16 =
    toBE 16 0x10f1e7e4d13b5915500fdd1fa32071c4 := by
  rw [← Proofs.ChaCha20.block_eq _ _ (by simp) (by simp)]
  decide +kernel

/-! ## C26 -/

/-- Feed the stream one `encrypt` call per pair of (input, output buffer). -/
def encryptAll (m : Mode) : Stream → List (Bytes × Bytes) → Option (List Bytes × Stream)
  | s, [] => some ([], s)
  | s, (input, output) :: rest => do
    let (c, s) ← s.encrypt m input output
    let (cs, s) ← encryptAll m s rest
    some (c :: cs, s)

/-- The same with `decrypt` calls. -/
def decryptAll (m : Mode) : Stream → List (Bytes × Bytes) → Option (List Bytes × Stream)
  | s, [] => some ([], s)
  | s, (input, output) :: rest => do
    let (c, s) ← s.decrypt m input output
    let (cs, s) ← decryptAll m s rest
    some (c :: cs, s)

theorem processLoop_append (m : Mode) (a b : Bytes) (s : Stream) :
    s.processLoop m (a ++ b) = (do
      let (x, s) ← s.processLoop m a
      let (y, s) ← s.processLoop m b
      some (x ++ y, s)) := by
  induction a generalizing s with
  | nil =>
    simp only [List.nil_append, Stream.processLoop, Option.bind_eq_bind, Option.bind_some]
    cases s.processLoop m b <;> rfl
  | cons z zs ih =>
    simp only [List.cons_append, Stream.processLoop, Option.bind_eq_bind]
    cases s.next m with
    | none => rfl
    | some p =>
      simp only [Option.bind_some, ih, Option.bind_eq_bind]
      cases p.2.processLoop m zs with
      | none => rfl
      | some q =>
        simp only [Option.bind_some]
        cases q.2.processLoop m b <;> rfl

theorem encryptAll_eq (m : Mode) (s : Stream) (pieces : List (Bytes × Bytes))
    (hl : ∀ p ∈ pieces, p.1.length = p.2.length) :
    (encryptAll m s pieces).map (fun r => (r.1.flatten, r.2)) = s.processLoop m (pieces.map Prod.fst).flatten := by
  induction pieces generalizing s with
  | nil => rfl
  | cons p rest ih =>
    obtain ⟨i, o⟩ := p
    have h1 : i.length = o.length := hl (i, o) (by simp)
    rw [List.map_cons, List.flatten_cons, processLoop_append]
    simp only [encryptAll, Stream.encrypt, Stream.process, h1, beq_self_eq_true, assert_true,
      Option.bind_eq_bind, Option.bind_some]
    cases s.processLoop m i with
    | none => rfl
    | some q =>
      simp only [Option.bind_some]
      rw [← ih q.2 (fun p hp => hl p (by simp [hp]))]
      cases encryptAll m q.2 rest <;> rfl

/-- From any stream state, encrypting in pieces gives, piece by piece, the ciphertext of one call on the
concatenation, leaves the stream in the same state, and panics in the same cases. -/
theorem C26_pieces (m : Mode) (s : Stream) (pieces : List (Bytes × Bytes)) (buf : Bytes)
    (hl : ∀ p ∈ pieces, p.1.length = p.2.length) (hb : buf.length = (pieces.map Prod.fst).flatten.length) :
    (encryptAll m s pieces).map (fun r => (r.1.flatten, r.2)) =
      s.encrypt m (pieces.map Prod.fst).flatten buf := by
  rw [encryptAll_eq m s pieces hl]
  unfold Stream.encrypt Stream.process
  rw [hb, beq_self_eq_true]
  rfl

/-- Encrypting in pieces with one stream and decrypting the ciphertext, split in any other way, with a second
stream of the same key and nonce gives back the message. -/
theorem C26_roundtrip (m : Mode) (key nonce : Bytes) (s : Stream) (h : Stream.new key nonce = some s)
    (pieces : List (Bytes × Bytes)) (hl : ∀ p ∈ pieces, p.1.length = p.2.length)
    (cs : List Bytes) (s' : Stream) (he : encryptAll m s pieces = some (cs, s'))
    (pieces' : List (Bytes × Bytes)) (hl' : ∀ p ∈ pieces', p.1.length = p.2.length)
    (hc : (pieces'.map Prod.fst).flatten = cs.flatten) :
    ∃ ps s'', decryptAll m s pieces' = some (ps, s'') ∧ ps.flatten = (pieces.map Prod.fst).flatten := by
  obtain ⟨hk, hn, rfl⟩ := new_some h
  have e := encryptAll_eq m (Proofs.ChaCha20.streamAt key nonce 0) pieces hl
  rw [he] at e
  have hlen : m = .release ∨ (pieces.map Prod.fst).flatten.length ≤ 2 ^ 38 := by
    by_contra hcon
    rw [not_or] at hcon
    cases m
    · rw [Proofs.ChaCha20.processLoop_overflow key nonce hk hn _ 0 (by omega) (by omega)] at e
      cases e
    · exact hcon.1 rfl
  rw [Proofs.ChaCha20.processLoop_ok key nonce hk hn m _ 0 (by simpa using hlen)] at e
  have e := congrArg Prod.fst (Option.some.inj e)
  simp only at e
  have hcl : cs.flatten.length = (pieces.map Prod.fst).flatten.length := by
    rw [e, xorBytes_length, Proofs.ChaCha20.ks_length]; omega
  have d := encryptAll_eq m (Proofs.ChaCha20.streamAt key nonce 0) pieces' hl'
  rw [hc, Proofs.ChaCha20.processLoop_ok key nonce hk hn m _ 0 (by rw [hcl]; simpa using hlen), hcl, e,
    xorBytes_cancel _ _ (by simp)] at d
  have : ∀ (l : List (Bytes × Bytes)) (s : Stream), decryptAll m s l = encryptAll m s l := by
    intro l
    induction l with
    | nil => intro s; rfl
    | cons p l ih =>
      intro s
      simp only [decryptAll, encryptAll, ih]
      rfl
  obtain ⟨r, hr, hr2⟩ := Option.map_eq_some_iff.mp d
  refine ⟨r.1, r.2, (this _ _).trans hr, ?_⟩
  exact congrArg Prod.fst hr2

/-- A concrete instance: two pieces in, three pieces out. -/
example : ∃ s cs s', Stream.new (zeros 32) (zeros 12) = some s ∧
    encryptAll .debug s [([1, 2, 3], zeros 3), ([4, 5], zeros 2)] = some (cs, s') ∧ cs.flatten.length = 5 := by
  obtain ⟨r, h1, h2⟩ := Option.map_eq_some_iff.mp
    ((encryptAll_eq .debug (Proofs.ChaCha20.streamAt (zeros 32) (zeros 12) 0)
      [([1, 2, 3], zeros 3), ([4, 5], zeros 2)] (by simp)).trans
      (Proofs.ChaCha20.processLoop_ok (zeros 32) (zeros 12) (by simp) (by simp) .debug [1, 2, 3, 4, 5] 0
        (.inr (by simp))))
  refine ⟨_, r.1, r.2, Proofs.ChaCha20.new_eq _ _ (by simp) (by simp), h1, ?_⟩
  have h3 : r.1.flatten = _ := congrArg Prod.fst h2
  rw [h3]
  simp

/-! ## C27 -/

/-- With overflow checks a stream yields exactly `2^38` bytes; asking for more panics. -/
theorem C27_debug (key nonce : Bytes) (s : Stream) (h : Stream.new key nonce = some s) (n : Nat) :
    nextBytes .debug n s = none ↔ 2 ^ 38 < n := by
  constructor
  · intro hn
    by_contra hle
    obtain ⟨s', hs⟩ := C25_stream_bytes key nonce s h .debug n (.inr (by omega))
    rw [hs] at hn; cases hn
  · intro hlt
    obtain ⟨hk, hn, rfl⟩ := new_some h
    have : ∀ k i, i ≤ 2 ^ 38 → 2 ^ 38 < i + k →
        nextBytes .debug k (Proofs.ChaCha20.streamAt key nonce i) = none := by
      intro k
      induction k with
      | zero => intro i h1 h2; omega
      | succ k ih =>
        intro i h1 h2
        rw [nextBytes]
        rcases Nat.lt_or_ge i (2 ^ 38) with hi | hi
        · rw [Proofs.ChaCha20.next_ok key nonce hk hn .debug i (.inr hi)]
          simp only [Option.bind_eq_bind, Option.bind_some]
          rw [ih (i + 1) (by omega) (by omega)]
          rfl
        · rw [Proofs.ChaCha20.next_overflow key nonce i (by omega)]
          rfl
    exact this n 0 (by omega) (by omega)

/-- Without overflow checks, after `2^38` bytes the stream repeats from the beginning. -/
theorem C27_release_repeats (key nonce : Bytes) (s : Stream) (h : Stream.new key nonce = some s) :
    ∃ b s', nextBytes .release (2 ^ 38) s = some (b, s') ∧
      ∀ k, (nextBytes .release k s').map Prod.fst = (nextBytes .release k s).map Prod.fst := by
  obtain ⟨hk, hn, rfl⟩ := new_some h
  obtain ⟨N, hN⟩ : ∃ N : Nat, N = 2 ^ 38 := ⟨_, rfl⟩
  rw [← hN]
  refine ⟨_, _, nextBytes_ok key nonce hk hn .release N 0 (.inl rfl), ?_⟩
  intro k
  rw [nextBytes_ok key nonce hk hn .release k _ (.inl rfl), nextBytes_ok key nonce hk hn .release k _ (.inl rfl)]
  simp only [Option.map_some, Nat.zero_add]
  refine congrArg some ?_
  unfold Proofs.ChaCha20.ks
  apply List.map_congr_left
  intro i _
  unfold Proofs.ChaCha20.ksByte
  rw [show (N + i) % 64 = (0 + i) % 64 by omega]
  have e : BitVec.ofNat 32 ((N + i) / 64) = BitVec.ofNat 32 ((0 + i) / 64) := by
    apply BitVec.eq_of_toNat_eq
    rw [BitVec.toNat_ofNat, BitVec.toNat_ofNat]
    omega
  rw [e]

/-! ## C28 -/

/-- `Stream::new` panics exactly on a wrong key or nonce length. -/
theorem C28_new (key nonce : Bytes) : Stream.new key nonce = none ↔ ¬ (key.length = 32 ∧ nonce.length = 12) := by
  constructor
  · intro h hl
    rw [Proofs.ChaCha20.new_eq key nonce hl.1 hl.2] at h
    cases h
  · intro h
    unfold Stream.new
    rw [Proofs.ChaCha20.new_none key nonce h]
    rfl

/-- After any number `n` of bytes taken from the stream, `encrypt` (and `decrypt`) of a message that stays within the
first `2^38` bytes panics exactly when the buffer length differs; without overflow checks that is the only cause
for any message. -/
theorem C28_encrypt (key nonce : Bytes) (s : Stream) (h : Stream.new key nonce = some s) (m : Mode) (n : Nat)
    (b : Bytes) (s' : Stream) (hs : nextBytes m n s = some (b, s')) (input output : Bytes)
    (hm : m = .release ∨ n + input.length ≤ 2 ^ 38) :
    (s'.encrypt m input output = none ↔ input.length ≠ output.length) ∧
    (s'.decrypt m input output = none ↔ input.length ≠ output.length) := by
  obtain ⟨hk, hn, rfl⟩ := new_some h
  rw [nextBytes_ok key nonce hk hn m n 0 (hm.imp id (by omega))] at hs
  cases hs
  have main : Stream.process m (Proofs.ChaCha20.streamAt key nonce (0 + n)) input output = none ↔
      input.length ≠ output.length := by
    unfold Stream.process
    by_cases hl : input.length = output.length
    · rw [hl, beq_self_eq_true, assert_true]
      simp only [Option.bind_eq_bind, Option.bind_some, ne_eq, not_true, iff_false]
      rw [Proofs.ChaCha20.processLoop_ok key nonce hk hn m input (0 + n) (hm.imp id (by omega))]
      exact fun h => by cases h
    · rw [show (input.length == output.length) = false by simpa using hl, assert_false]
      simp [hl]
  exact ⟨main, main⟩

example : Stream.new (zeros 32) (zeros 12) ≠ none := fun h => (C28_new _ _).mp h (by simp)

/-! ## Further concrete cases -/

theorem stream_reachable : ∃ s, Stream.new (1 :: zeros 31) (2 :: zeros 11) = some s :=
  Option.ne_none_iff_exists'.mp fun h => (C28_new _ _).mp h (by simp)

/-- C25, C27: a stream under a concrete key and nonce. -/
example : ∃ s s', Stream.new (1 :: zeros 31) (2 :: zeros 11) = some s ∧
    nextBytes .debug 100 s = some ((List.range 100).map (rfcByte (1 :: zeros 31) (2 :: zeros 11)), s') ∧
    nextBytes .debug (2 ^ 38) s ≠ none ∧ nextBytes .debug (2 ^ 38 + 1) s = none ∧
    ∃ b s'', nextBytes .release (2 ^ 38) s = some (b, s'') ∧
      ∀ k, (nextBytes .release k s'').map Prod.fst = (nextBytes .release k s).map Prod.fst := by
  obtain ⟨s, h⟩ := stream_reachable
  obtain ⟨s', h'⟩ := C25_stream_bytes _ _ s h .debug 100 (.inr (by norm_num))
  exact ⟨s, s', h, h', fun e => absurd ((C27_debug _ _ s h _).mp e) (lt_irrefl _), (C27_debug _ _ s h _).mpr (Nat.lt_succ_self _),
    C27_release_repeats _ _ s h⟩

/-- C26: two pieces, decrypted in three other pieces. -/
example : ∃ s cs s' ps s'', Stream.new (1 :: zeros 31) (2 :: zeros 11) = some s ∧
    encryptAll .debug s [([1, 2, 3], zeros 3), ([4, 5], zeros 2)] = some (cs, s') ∧
    s.encrypt .debug [1, 2, 3, 4, 5] (zeros 5) = some (cs.flatten, s') ∧
    decryptAll .debug s [(cs.flatten.take 1, zeros 1), (cs.flatten.drop 1, zeros 4), ([], [])] = some (ps, s'') ∧
    ps.flatten = [1, 2, 3, 4, 5] := by
  obtain ⟨s, h⟩ := stream_reachable
  have hp := C26_pieces .debug s [([1, 2, 3], zeros 3), ([4, 5], zeros 2)] (zeros 5) (by simp) (by simp)
  have hne : s.encrypt .debug [1, 2, 3, 4, 5] (zeros 5) ≠ none := fun e =>
    absurd ((C28_encrypt _ _ s h .debug 0 [] s rfl [1, 2, 3, 4, 5] (zeros 5) (.inr (by norm_num))).1.mp e) (by simp)
  obtain ⟨r, hr⟩ := Option.ne_none_iff_exists'.mp hne
  rw [show (List.map Prod.fst [(([1, 2, 3] : Bytes), zeros 3), ([4, 5], zeros 2)]).flatten = [1, 2, 3, 4, 5] from rfl, hr] at hp
  obtain ⟨q, hq, e⟩ := Option.map_eq_some_iff.mp hp
  obtain ⟨cs, s'⟩ := q
  have hl : cs.flatten.length = 5 := by
    have := encryptAll_eq .debug s [([1, 2, 3], zeros 3), ([4, 5], zeros 2)] (by simp)
    have e1 : r.1 = cs.flatten := by rw [← e]
    rw [← e1]
    have hx := Proofs.ChaCha20.new_eq (1 :: zeros 31) (2 :: zeros 11) (by simp) (by simp)
    rw [h] at hx
    obtain rfl := Option.some.inj hx
    rw [hq, Proofs.ChaCha20.processLoop_ok (1 :: zeros 31) (2 :: zeros 11) (by simp) (by simp) .debug _ 0 (.inr (by simp))] at this
    have := congrArg Prod.fst (Option.some.inj this)
    rw [e1]
    simp only at this
    rw [this]
    simp
  obtain ⟨ps, s'', h1, h2⟩ := C26_roundtrip .debug _ _ s h _ (by simp) cs s' hq
    [(cs.flatten.take 1, zeros 1), (cs.flatten.drop 1, zeros 4), ([], [])] (by simp [hl])
    (by
      show cs.flatten.take 1 ++ (cs.flatten.drop 1 ++ ([] ++ [])) = _
      rw [List.append_nil, List.append_nil, List.take_append_drop])
  exact ⟨s, cs, s', ps, s'', h, hq, by rw [hr, ← e], h1, h2⟩

/-- C28: a buffer of the wrong length, after seven bytes. -/
example : ∃ s b s', Stream.new (1 :: zeros 31) (2 :: zeros 11) = some s ∧ nextBytes .debug 7 s = some (b, s') ∧
    s'.encrypt .debug [1, 2] (zeros 3) = none ∧ s'.decrypt .debug [1, 2] (zeros 2) ≠ none := by
  obtain ⟨s, h⟩ := stream_reachable
  obtain ⟨s', h'⟩ := C25_stream_bytes _ _ s h .debug 7 (.inr (by norm_num))
  exact ⟨s, _, s', h, h', (C28_encrypt _ _ s h .debug 7 _ s' h' [1, 2] (zeros 3) (.inr (by norm_num))).1.mpr (by simp),
    fun e => absurd ((C28_encrypt _ _ s h .debug 7 _ s' h' [1, 2] (zeros 2) (.inr (by norm_num))).2.mp e) (by simp)⟩

end CryptoPure.Props
