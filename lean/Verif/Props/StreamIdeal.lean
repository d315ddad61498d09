import Mathlib.Data.Fintype.Vector
import Mathlib.Data.Fintype.Pi
import Verif.Proofs.StreamIdeal
import Verif.Proofs.ChaCha20

/-! # C117: what a raw ChaCha20 stream protects, and what it does not

The stream hides all data sent through it, perfectly if the block function is random; it protects nothing else: whoever can
change the ciphertext changes the plaintext in the same places. -/

namespace CryptoPure.Props
open CryptoPure.Model CryptoPure.Model.ChaCha20 StreamGame
open Game (prob)

/-- The blocks the block function of a keyed ChaCha20 could return: 64 bytes for each nonce of 12 bytes and each counter. -/
abbrev KeystreamBlocks := {n : Bytes // n.length = 12} → U32 → Fin 64 → U8

attribute [local irreducible] CryptoPure.Model.ChaCha20.block setupState

/-- `ChaCha20::new(key, nonce)` with the block function taken from `G`: a nonce of another length panics. -/
def setupFrom (G : KeystreamBlocks) (nonce : Bytes) : Option (U32 → Bytes) :=
  if h : nonce.length = 12 then some fun c => List.ofFn (G ⟨nonce, h⟩ c) else none

/-- The streams of src/chacha20.rs over a block function. -/
def streamScheme (m : Mode) : Scheme KeystreamBlocks StreamWith where
  new G nonce := StreamWith.new (setupFrom G) nonce
  process s input buffer := s.process m input buffer

/-- The streams of src/chacha20.rs under a key. -/
def chachaScheme (m : Mode) : Scheme Bytes Stream where
  new key nonce := Stream.new key nonce
  process s input buffer := s.process m input buffer

/-- The parametric stream is the code: with the block function of the code for this key, `new` and `process` do the same. -/
theorem C117_code (m : Mode) (key nonce : Bytes) (s : Stream) (x y : Bytes) :
    (Stream.new key nonce).map Stream.toWith = StreamWith.new (fun n => (ChaCha20.new key n).map ChaCha20.block) nonce ∧
    (s.encrypt m x y).map (fun p => (p.1, p.2.toWith)) = s.toWith.process m x y ∧
    (s.decrypt m x y).map (fun p => (p.1, p.2.toWith)) = s.toWith.process m x y :=
  ⟨Proofs.StreamIdeal.new_with key nonce, Proofs.StreamIdeal.process_with m x y s, Proofs.StreamIdeal.process_with m x y s⟩

/-- The blocks the code computes under a key: byte `j` of block `c` for a nonce. -/
def chachaBlocks (key : Bytes) : KeystreamBlocks := fun n c j => (Spec.ChaCha20.block key c n.1).getD j.1 0

theorem fn_chacha (key : Bytes) (hk : key.length = 32) (nonce : Bytes) (hn : nonce.length = 12) (c : U32) :
    List.ofFn (chachaBlocks key ⟨nonce, hn⟩ c) = ChaCha20.block (setupState key nonce) c := by
  rw [Proofs.ChaCha20.block_eq key nonce hk hn]
  apply List.ext_getElem
  · rw [List.length_ofFn, Proofs.ChaCha20.spec_block_length]
  · intro i h1 h2
    rw [List.getElem_ofFn]
    unfold chachaBlocks
    rw [List.getD_eq_getElem?_getD, List.getElem?_eq_getElem h2]
    rfl

theorem setup_chacha (key : Bytes) (hk : key.length = 32) :
    setupFrom (chachaBlocks key) = fun n => (ChaCha20.new key n).map ChaCha20.block := by
  funext n
  unfold setupFrom
  by_cases h : n.length = 12
  · rw [dif_pos h]
    have e : ChaCha20.new key n = some (setupState key n) := by
      unfold ChaCha20.new; simp only [hk, h]; rfl
    rw [e, Option.map_some]
    exact congrArg some (funext fun c => fn_chacha key hk n h c)
  · rw [dif_neg h, Proofs.ChaCha20.new_none key n (by tauto)]
    rfl

theorem play_map {K K' S S' : Type} (C : Scheme K S) (C' : Scheme K' S') (f : S → S') (k : K) (k' : K')
    (hn : ∀ x, C'.new k' x = (C.new k x).map f) (hp : ∀ s x y, C'.process (f s) x y = (C.process s x y).map fun p => (p.1, f p.2))
    (r : Bool) (A : Adversary) (l : List (Bytes × Nat × S)) :
    play C' r k' A (l.map fun t => (t.1, t.2.1, f t.2.2)) = play C r k A l := by
  have hfst : ∀ l : List (Bytes × Nat × S), (l.map fun t => (t.1, t.2.1, f t.2.2)).map Prod.fst = l.map Prod.fst := by
    intro l; rw [List.map_map]; rfl
  have hlook : ∀ (l : List (Bytes × Nat × S)) x, (l.map fun t => (t.1, t.2.1, f t.2.2)).lookup x =
      (l.lookup x).map fun t => (t.1, f t.2) := by
    intro l x
    induction l with
    | nil => rfl
    | cons t l ih =>
      obtain ⟨a, b, c⟩ := t
      rw [List.map_cons, List.lookup_cons, List.lookup_cons, ih]
      cases x == a <;> rfl
  induction A generalizing l with
  | stop g => rfl
  | start nonce next ih =>
    unfold play
    rw [hfst, hn]
    by_cases h : nonce ∈ l.map Prod.fst
    · rw [if_pos h, if_pos h]; exact ih _ _
    · rw [if_neg h, if_neg h]
      cases C.new k nonce with
      | none => exact ih _ _
      | some s => exact ih true ((nonce, 0, s) :: l)
  | send nonce msg msg' buffer next ih =>
    unfold play
    rw [hlook]
    cases l.lookup nonce with
    | none => exact ih _ _
    | some t =>
      obtain ⟨n, s⟩ := t
      simp only [Option.map_some]
      by_cases h : msg.length ≠ msg'.length ∨ 2 ^ 38 < n + msg.length
      · rw [if_pos h, if_pos h]; exact ih _ _
      · rw [if_neg h, if_neg h, hp]
        cases C.process s (if r then msg' else msg) buffer with
        | none => exact ih _ _
        | some o =>
          obtain ⟨out, s'⟩ := o
          exact ih (some out) ((nonce, n + msg.length, s') :: l)

/-- The game with the code under a key of 32 bytes is the game over the block function of that key. -/
theorem C117_code_game (m : Mode) (r : Bool) (key : Bytes) (hk : key.length = 32) (A : Adversary) :
    play (chachaScheme m) r key A [] = play (streamScheme m) r (chachaBlocks key) A [] := by
  refine (play_map (chachaScheme m) (streamScheme m) Stream.toWith key (chachaBlocks key) ?_ ?_ r A []).symm
  · intro x
    show StreamWith.new (setupFrom (chachaBlocks key)) x = _
    rw [setup_chacha key hk]
    exact (Proofs.StreamIdeal.new_with key x).symm
  · intro s x y
    exact (Proofs.StreamIdeal.process_with m x y s).symm

instance : Finite KeystreamBlocks := by
  have h8 : Finite U8 := Finite.of_injective BitVec.toFin (fun _ _ h => BitVec.toFin_inj.mp h)
  have h32 : Finite U32 := Finite.of_injective BitVec.toFin (fun _ _ h => BitVec.toFin_inj.mp h)
  have : Fintype U8 := Fintype.ofFinite _
  have : Finite {n : Bytes // n.length = 12} := Finite.of_fintype (List.Vector U8 12)
  infer_instance

theorem setupFrom_eq (G : KeystreamBlocks) : setupFrom G = Proofs.StreamIdeal.setup G := by
  funext n
  unfold setupFrom Proofs.StreamIdeal.setup
  by_cases h : n.length = 12
  · rw [dif_pos h, if_pos h]
    congr 1
    funext c
    unfold Proofs.StreamIdeal.fn
    rw [dif_pos h]
  · rw [dif_neg h, if_neg h]

theorem streamScheme_eq (m : Mode) : streamScheme m = Proofs.StreamIdeal.scheme m := by
  unfold streamScheme Proofs.StreamIdeal.scheme
  congr 1
  funext G n
  rw [setupFrom_eq]

/-- The keystream that makes the other messages look like these. -/
def swapStreams (r : Bool) (A : Adversary) (G : KeystreamBlocks) : KeystreamBlocks :=
  Proofs.StreamIdeal.add G (Proofs.StreamIdeal.shift r G A fun _ => none)

theorem play_swapStreams (m : Mode) (r : Bool) (G : KeystreamBlocks) (A : Adversary) :
    play (streamScheme m) (!r) (swapStreams r A G) A [] = play (streamScheme m) r G A [] := by
  have hd : ∀ G, Proofs.StreamIdeal.Describes G [] (fun _ => none) := fun G => ⟨by simp, by simp⟩
  rw [streamScheme_eq, Proofs.StreamIdeal.play_eq m _ _ A [] _ (hd _), Proofs.StreamIdeal.play_eq m _ _ A [] _ (hd _)]
  exact (Proofs.StreamIdeal.run_shift r G A _ (fun _ _ h => by cases h)).1

theorem swapStreams_inj (r : Bool) (A : Adversary) (G G' : KeystreamBlocks) (h : swapStreams r A G = swapStreams r A G') : G = G' := by
  have hf : Proofs.StreamIdeal.Fine (fun _ => none) := fun _ _ h => by cases h
  have h1 := (Proofs.StreamIdeal.run_shift r G A _ hf).2
  have h2 := (Proofs.StreamIdeal.run_shift r G' A _ hf).2
  unfold swapStreams at h
  rw [h] at h1
  have e := h1.symm.trans h2
  rw [e] at h
  exact Proofs.StreamIdeal.add_inj h

/-- Perfect hiding: whatever the adversary does with any number of streams under different nonces, interleaved and with calls
that depend on all earlier answers, its guess is the same with the same probability whether the first or the second messages
were sent. -/
theorem C117_hides (m : Mode) (A : Adversary) :
    prob (fun G => play (streamScheme m) true G A [] = true) = prob (fun G => play (streamScheme m) false G A [] = true) := by
  apply le_antisymm
  · refine Game.prob_inj (swapStreams true A) (fun G h => ?_) fun G G' _ _ h => swapStreams_inj true A G G' h
    exact (play_swapStreams m true G A).trans h
  · refine Game.prob_inj (swapStreams false A) (fun G h => ?_) fun G G' _ _ h => swapStreams_inj false A G G' h
    exact (play_swapStreams m false G A).trans h

/-- For the code itself, under a uniformly random key: if the adversary tells the ChaCha20 block function under a random key from
random blocks with advantage at most `e` when the first messages are sent and at most `e'` when the second ones are, then it
tells the first messages from the second with advantage at most `e + e'`. -/
theorem C117_code_hides (m : Mode) (A : Adversary) (e e' : ℚ)
    (he : |prob (fun k : {k : Bytes // k.length = 32} => play (streamScheme m) false (chachaBlocks k.1) A [] = true) -
      prob (fun G => play (streamScheme m) false G A [] = true)| ≤ e)
    (he' : |prob (fun k : {k : Bytes // k.length = 32} => play (streamScheme m) true (chachaBlocks k.1) A [] = true) -
      prob (fun G => play (streamScheme m) true G A [] = true)| ≤ e') :
    |prob (fun k : {k : Bytes // k.length = 32} => play (chachaScheme m) true k.1 A [] = true) -
      prob (fun k : {k : Bytes // k.length = 32} => play (chachaScheme m) false k.1 A [] = true)| ≤ e + e' := by
  have h : ∀ r, (fun k : {k : Bytes // k.length = 32} => play (chachaScheme m) r k.1 A [] = true) =
      fun k : {k : Bytes // k.length = 32} => play (streamScheme m) r (chachaBlocks k.1) A [] = true := by
    intro r; funext k; rw [C117_code_game m r k.1 k.2 A]
  rw [h, h]
  have := C117_hides m A
  rw [this] at he'
  rw [abs_le] at he he' ⊢
  constructor <;> linarith [he.1, he.2, he'.1, he'.2]

theorem processLoop_flip (m : Mode) (x d : Bytes) (h : d.length = x.length) (s : Stream) :
    s.processLoop m (xorBytes x d) = (s.processLoop m x).map fun p => (xorBytes p.1 d, p.2) := by
  induction x generalizing d s with
  | nil => rw [List.length_eq_zero_iff.mp h]; rfl
  | cons z zs ih =>
    cases d with
    | nil => simp at h
    | cons e es =>
      show s.processLoop m ((z ^^^ e) :: xorBytes zs es) = _
      rw [Stream.processLoop, Stream.processLoop]
      cases s.next m with
      | none => rfl
      | some p =>
        obtain ⟨y, s1⟩ := p
        simp only [Option.bind_eq_bind, Option.bind_some]
        rw [ih es (by simpa using h)]
        cases s1.processLoop m zs with
        | none => rfl
        | some q =>
          obtain ⟨o, s2⟩ := q
          simp only [Option.map_some, Option.bind_some, xorBytes, List.zipWith_cons_cons, BitVec.xor_assoc]

/-- No integrity: for every stream object in whatever state, flipping bits of the input flips the same bits of the output,
panics are not affected, and the object is the same afterwards. An attacker who flips bits in a ciphertext flips the same bits in
what `decrypt` writes. -/
theorem C117_malleable (m : Mode) (s : Stream) (x d buffer : Bytes) (h : d.length = x.length) :
    s.decrypt m (xorBytes x d) buffer = (s.decrypt m x buffer).map fun p => (xorBytes p.1 d, p.2) := by
  show s.process m (xorBytes x d) buffer = (s.process m x buffer).map _
  unfold Stream.process
  rw [xorBytes_length, h, min_self, processLoop_flip m x d h s]
  cases assert (x.length == buffer.length) <;> rfl

theorem processLoop_length (m : Mode) (x : Bytes) (s s' : Stream) (o : Bytes) (h : s.processLoop m x = some (o, s')) :
    o.length = x.length := by
  induction x generalizing s o with
  | nil => simp [Stream.processLoop] at h; rw [← h.1]
  | cons z zs ih =>
    rw [Stream.processLoop] at h
    simp only [Option.bind_eq_bind, Option.bind_eq_some_iff] at h
    obtain ⟨⟨y, s1⟩, h1, ⟨o', s2⟩, h2, h3⟩ := h
    simp only [Option.some.injEq, Prod.mk.injEq] at h3
    rw [← h3.1, List.length_cons, List.length_cons, ih s1 o' (by rw [h2, h3.2])]

/-- Two messages sent through equal stream objects (the same key and nonce used twice): the difference of the outputs is the
difference of the messages. -/
theorem C117_reuse (m : Mode) (s s1 s2 : Stream) (x y b b' c c' : Bytes) (h : x.length = y.length)
    (h1 : s.encrypt m x b = some (c, s1)) (h2 : s.encrypt m y b' = some (c', s2)) : xorBytes c c' = xorBytes x y ∧ s1 = s2 := by
  have e1 : s.processLoop m x = some (c, s1) := by
    change s.process m x b = _ at h1
    unfold Stream.process at h1
    cases ha : assert (x.length == b.length) with
    | none => rw [ha] at h1; cases h1
    | some u => rw [ha] at h1; exact h1
  have e2 : s.processLoop m y = some (c', s2) := by
    change s.process m y b' = _ at h2
    unfold Stream.process at h2
    cases ha : assert (y.length == b'.length) with
    | none => rw [ha] at h2; cases h2
    | some u => rw [ha] at h2; exact h2
  have hl : c.length = x.length := processLoop_length m x s s1 c e1
  have e3 := processLoop_flip m x (xorBytes x y) (by simp [h]) s
  rw [xorBytes_comm x (xorBytes x y), xorBytes_comm x y, xorBytes_cancel y x (by omega), e1, e2] at e3
  simp only [Option.map_some, Option.some.injEq, Prod.mk.injEq] at e3
  refine ⟨?_, e3.2.symm⟩
  rw [e3.1, xorBytes_comm c, xorBytes_comm c, xorBytes_cancel _ _ (by simp [hl]), xorBytes_comm]

/-! ## The hypotheses can be met -/

/-- An adversary that opens two streams, alternates between them, tries to use a nonce twice, and guesses by the last answer. -/
def exampleAdversary : Adversary :=
  .start (zeros 12) fun _ => .start (toLE 12 1) fun _ => .send (zeros 12) [1, 2] [3, 4] [0, 0] fun a =>
    .send (toLE 12 1) ((a.getD []).take 1) [7] [0] fun _ => .start (zeros 12) fun again =>
      .send (zeros 12) [0] [9] [0] fun b => .stop (again || b == some [0])

/-- The example wins in the left game for the blocks that are zero, so the events counted in `C117_hides` are not empty. -/
example : play (streamScheme .debug) false (fun _ _ _ => 0) exampleAdversary [] = true := by decide +kernel
example : play (streamScheme .debug) true (fun _ _ _ => 0) exampleAdversary [] = false := by decide +kernel

/-- Concretely: decrypting a ciphertext with one flipped bit gives the message with that bit flipped. -/
example : ((Stream.new (zeros 32) (zeros 12)).bind fun s => (s.encrypt .debug [0x68, 0x69] [0, 0]).bind fun p =>
    (s.decrypt .debug (xorBytes p.1 [0, 1]) [0, 0]).map Prod.fst) = some [0x68, 0x68] := by decide +kernel

end CryptoPure.Props
