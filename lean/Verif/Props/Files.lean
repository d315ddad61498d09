import Verif.Spec.FileGame
import Verif.Proofs.RecordGame
import Verif.Props.Records
import Verif.Props.Reduction
import Verif.Props.Session

/-! # C154: files encrypted in pieces -/

namespace CryptoPure.Props.Files
open CryptoPure.Model CryptoPure.Props Game FileGame Distinguisher
open RecordGame (nonce RoundTrip nonce_inj)

variable {K : Type} {S : Scheme K}

/-! ## Round trip -/

theorem flag_of {α β : Type} {a : List α} {b : List β} (h : a.length = b.length) : flag a = flag b := by
  unfold flag
  cases a <;> cases b <;> simp_all

theorem sealFrom_length (k : K) : ∀ (file : List Bytes) (i : Nat) (rs), sealFrom S k i file = some rs → rs.length = file.length
  | [], _, rs, h => by cases h; rfl
  | p :: rest, i, rs, h => by
    unfold sealFrom at h
    split at h
    · cases h
    · obtain ⟨rs', h1, rfl⟩ := Option.map_eq_some_iff.mp h
      simp [sealFrom_length k rest _ _ h1]

theorem openFrom_sealFrom (hS : RoundTrip S) (k : K) : ∀ (file : List Bytes) (i : Nat) (rs), sealFrom S k i file = some rs → openFrom S k i rs = some file
  | [], _, rs, h => by cases h; rfl
  | p :: rest, i, rs, h => by
    unfold sealFrom at h
    split at h
    · cases h
    · rename_i r hr
      obtain ⟨rs', h1, rfl⟩ := Option.map_eq_some_iff.mp h
      unfold openFrom
      rw [flag_of (sealFrom_length k rest _ _ h1), hS _ _ _ _ _ _ hr]
      simp only
      rw [openFrom_sealFrom hS k rest _ _ h1]
      rfl

theorem file_roundTrip (hS : RoundTrip S) (k : K) (file : List Bytes) (hf : file ≠ []) (rs) (h : sealFile S k file = some rs) : openFile S k rs = some file := by
  unfold openFile
  rw [if_neg, openFrom_sealFrom hS k file 0 rs h]
  rintro rfl
  have := sealFrom_length k file 0 _ h
  exact hf (List.length_eq_zero_iff.mp this.symm)

/-! ## The attack as an attack on the cipher -/

/-- What is sent for the records from number `i` on. -/
def entries : Nat → List (Bytes × Bytes) → Log
  | _, [] => []
  | i, r :: rest => (nonce i, flag rest, r.1, r.2) :: entries (i + 1) rest

theorem entries_nonce : ∀ (rs : List (Bytes × Bytes)) (i : Nat) (e), e ∈ entries i rs → ∃ j, i ≤ j ∧ j < i + rs.length ∧ e.1 = nonce j
  | [], _, _, h => by cases h
  | r :: rest, i, e, h => by
    rcases List.mem_cons.mp h with rfl | h
    · exact ⟨i, le_refl _, by simp, rfl⟩
    · obtain ⟨j, h1, h2, h3⟩ := entries_nonce rest _ _ h
      exact ⟨j, by omega, by simp only [List.length_cons]; omega, h3⟩

/-- Records all of which were sent are what was sent, and all of it: their numbers are in the nonces, and the last one says that it is the last. -/
theorem entries_subset : ∀ (rs' rs : List (Bytes × Bytes)) (i : Nat), i + rs'.length ≤ 2 ^ 96 → i + rs.length ≤ 2 ^ 96 → rs' ≠ [] → entries i rs' ⊆ entries i rs → rs' = rs
  | [], _, _, _, _, h, _ => absurd rfl h
  | r' :: rest', [], _, _, _, _, h => absurd (h (List.mem_cons_self ..)) (List.not_mem_nil)
  | r' :: rest', r :: rest, i, h1, h2, _, h => by
    simp only [List.length_cons] at h1 h2
    have hh := h (List.mem_cons_self ..)
    have hhead : (nonce i, flag rest', r'.1, r'.2) = (nonce i, flag rest, r.1, r.2) := by
      rcases List.mem_cons.mp hh with e | e
      · exact e
      · obtain ⟨j, hj1, hj2, e⟩ := entries_nonce rest _ _ e
        have := nonce_inj (by omega) (by omega) e
        omega
    simp only [Prod.mk.injEq, true_and] at hhead
    obtain ⟨hf, h3, h4⟩ := hhead
    have hr : r' = r := Prod.ext h3 h4
    have htail : entries (i + 1) rest' ⊆ entries (i + 1) rest := by
      intro e he
      rcases List.mem_cons.mp (h (List.mem_cons_of_mem _ he)) with e' | e'
      · obtain ⟨j, hj1, hj2, hj⟩ := entries_nonce rest' _ _ he
        rw [e'] at hj
        have := nonce_inj (by omega) (by omega) hj
        omega
      · exact e'
    rw [hr]
    congr 1
    by_cases hn : rest' = []
    · subst hn
      cases rest with
      | nil => rfl
      | cons a b => simp [flag] at hf
    · exact entries_subset rest' rest (i + 1) (by omega) (by omega) hn htail

/-- Let the pieces be encrypted, and go on with the records. -/
def writer (next : List (Bytes × Bytes) → Adversary) : Nat → List Bytes → List Bytes → List (Bytes × Bytes) → Adversary
  | i, p :: ps, p' :: ps', acc => .encrypt (nonce i) (flag ps) p p' (zeros p.length) fun
    | none => .stop false
    | some r => writer next (i + 1) ps ps' (acc ++ [r])
  | _, _, _, acc => next acc

/-- Find out whether the receiver accepts the records from number `i` on: it accepts those that were sent, and for the others one asks. -/
def reader (known : Log) (next : Bool → Adversary) : Nat → List (Bytes × Bytes) → Adversary
  | _, [] => next true
  | i, r :: rest =>
    if (nonce i, flag rest, r.1, r.2) ∈ known then reader known next (i + 1) rest
    else .decrypt (nonce i) (flag rest) r.1 r.2 (zeros r.1.length) fun
      | some (_, true) => reader known next (i + 1) rest
      | _ => next false

/-- The attack: see the encrypted file, hand other records to the receiver, see whether it accepts, and guess. -/
def attack (file file' : List Bytes) (tamper : List (Bytes × Bytes) → List (Bytes × Bytes)) (guess : List (Bytes × Bytes) → Bool → Bool) : Adversary :=
  writer (fun rs => if tamper rs = [] then .stop (guess rs false) else reader (entries 0 rs) (fun ok => .stop (guess rs ok)) 0 (tamper rs)) 0 file file' []

theorem sealFrom_fresh {i : Nat} {log : Log} (hlog : ∀ e ∈ log, ∃ j, j < i ∧ e.1 = nonce j) (hi : i < 2 ^ 96) : nonce i ∉ log.map Prod.fst := by
  intro h
  obtain ⟨e, he, e1⟩ := List.mem_map.mp h
  obtain ⟨j, hj, e2⟩ := hlog e he
  have := nonce_inj (by omega) hi (e2.symm.trans e1)
  omega

theorem flag_right {ps ps' : List Bytes} (h : ps.length = ps'.length) (right : Bool) : flag (if right then ps' else ps) = flag ps := by
  cases right
  · rfl
  · exact flag_of h.symm

theorem writer_play (right : Bool) (k : K) (next : List (Bytes × Bytes) → Adversary) : ∀ (ps ps' : List Bytes) (i : Nat) (acc : List (Bytes × Bytes)) (log : Log),
    ps.map List.length = ps'.map List.length → i + ps.length ≤ 2 ^ 96 → (∀ e ∈ log, ∃ j, j < i ∧ e.1 = nonce j) →
    (play S right k (writer next i ps ps' acc) log = match sealFrom S k i (if right then ps' else ps) with
      | none => false
      | some rs => play S right k (next (acc ++ rs)) ((entries i rs).reverse ++ log)) ∧
    (forges S right k (writer next i ps ps' acc) log ↔ match sealFrom S k i (if right then ps' else ps) with
      | none => False
      | some rs => forges S right k (next (acc ++ rs)) ((entries i rs).reverse ++ log))
  | [], [], i, acc, log, _, _, _ => by
    cases right <;> simp [writer, sealFrom, entries]
  | [], p' :: ps', i, acc, log, h, _, _ => by simp at h
  | p :: ps, [], i, acc, log, h, _, _ => by simp at h
  | p :: ps, p' :: ps', i, acc, log, h, hi, hlog => by
    simp only [List.map_cons, List.cons.injEq] at h
    simp only [List.length_cons] at hi
    have hll : ps.length = ps'.length := by simpa using congrArg List.length h.2
    have hcons : (if right then p' :: ps' else p :: ps) = (if right then p' else p) :: (if right then ps' else ps) := by cases right <;> rfl
    have hz : (if right then p' else p).length = p.length := by cases right <;> simp [h.1]
    have hfresh : ¬ (nonce i ∈ log.map Prod.fst ∨ p.length ≠ p'.length) := by
      rintro (h' | h')
      · exact sealFrom_fresh hlog (by omega) h'
      · exact h' h.1
    rw [hcons]
    unfold writer sealFrom
    rw [hz, flag_right hll]
    simp only [play, forges, if_neg hfresh]
    cases he : S.enc k (if right then p' else p) (nonce i) (flag ps) (zeros p.length) with
    | none => exact ⟨rfl, Iff.rfl⟩
    | some r =>
      have hlog' : ∀ e ∈ (nonce i, flag ps, r.1, r.2) :: log, ∃ j, j < i + 1 ∧ e.1 = nonce j := by
        intro e he
        rcases List.mem_cons.mp he with rfl | he
        · exact ⟨i, by omega, rfl⟩
        · obtain ⟨j, h1, h2⟩ := hlog e he
          exact ⟨j, by omega, h2⟩
      have ih := writer_play right k next ps ps' (i + 1) (acc ++ [r]) ((nonce i, flag ps, r.1, r.2) :: log) h.2 (by omega) hlog'
      cases hs : sealFrom S k (i + 1) (if right then ps' else ps) with
      | none =>
        rw [hs] at ih
        exact ih
      | some rs =>
        rw [hs] at ih
        have hfl : flag rs = flag ps := by
          refine flag_of ?_
          rw [sealFrom_length k _ _ _ hs]
          cases right
          · rfl
          · exact hll.symm
        have e1 : acc ++ [r] ++ rs = acc ++ r :: rs := by simp
        have e2 : (entries (i + 1) rs).reverse ++ (nonce i, flag ps, r.1, r.2) :: log = (entries i (r :: rs)).reverse ++ log := by
          show _ = ((nonce i, flag rs, r.1, r.2) :: entries (i + 1) rs).reverse ++ log
          rw [hfl]
          simp
        simp only [e1, e2] at ih
        exact ih

theorem known_opens (hS : RoundTrip S) (k : K) : ∀ (file : List Bytes) (i : Nat) (rs), sealFrom S k i file = some rs →
    ∀ e ∈ entries i rs, ∃ out, S.dec k e.2.2.1 e.1 e.2.1 e.2.2.2 (zeros e.2.2.1.length) = some (out, true)
  | [], _, rs, h, e, he => by cases h; cases he
  | p :: rest, i, rs, h, e, he => by
    unfold sealFrom at h
    split at h
    · cases h
    · rename_i r hr
      obtain ⟨rs', h1, rfl⟩ := Option.map_eq_some_iff.mp h
      rcases List.mem_cons.mp he with rfl | he
      · refine ⟨p, ?_⟩
        show S.dec k r.1 (nonce i) (flag rs') r.2 _ = _
        rw [flag_of (sealFrom_length k rest _ _ h1)]
        exact hS _ _ _ _ _ _ hr
      · exact known_opens hS k rest _ _ h1 e he

theorem openFrom_cons_some (k : K) (i : Nat) (r : Bytes × Bytes) (rest : List (Bytes × Bytes)) {out : Bytes}
    (h : S.dec k r.1 (nonce i) (flag rest) r.2 (zeros r.1.length) = some (out, true)) : (openFrom S k i (r :: rest)).isSome = (openFrom S k (i + 1) rest).isSome := by
  conv_lhs => unfold openFrom
  rw [h]
  simp

theorem reader_play (k : K) (right : Bool) (known log : Log) (hlog : ∀ e, e ∈ log ↔ e ∈ known)
    (hkn : ∀ e ∈ known, ∃ out, S.dec k e.2.2.1 e.1 e.2.1 e.2.2.2 (zeros e.2.2.1.length) = some (out, true)) (guess : Bool → Bool) :
    ∀ (rs : List (Bytes × Bytes)) (i : Nat), play S right k (reader known (fun ok => .stop (guess ok)) i rs) log = guess (openFrom S k i rs).isSome
  | [], _ => rfl
  | r :: rest, i => by
    unfold reader
    by_cases he : (nonce i, flag rest, r.1, r.2) ∈ known
    · obtain ⟨out, ho⟩ := hkn _ he
      rw [if_pos he, reader_play k right known log hlog hkn guess rest, openFrom_cons_some k i r rest ho]
    · rw [if_neg he]
      simp only [play]
      rw [if_neg (fun h => he ((hlog _).mp h))]
      cases hd : S.dec k r.1 (nonce i) (flag rest) r.2 (zeros r.1.length) with
      | none =>
        conv_rhs => unfold openFrom
        rw [hd]; rfl
      | some q =>
        obtain ⟨out, ok⟩ := q
        cases ok with
        | false =>
          conv_rhs => unfold openFrom
          rw [hd]; rfl
        | true =>
          rw [openFrom_cons_some k i r rest hd]
          exact reader_play k right known log hlog hkn guess rest _

theorem reader_forges (k : K) (right : Bool) (known log : Log) (hlog : ∀ e, e ∈ log ↔ e ∈ known) (next : Bool → Adversary) :
    ∀ (rs : List (Bytes × Bytes)) (i : Nat) (file), openFrom S k i rs = some file → ¬ entries i rs ⊆ known → forges S right k (reader known next i rs) log
  | [], _, _, _, h => absurd (fun e he => by cases he) h
  | r :: rest, i, file, ho, h => by
    unfold openFrom at ho
    split at ho
    · rename_i out hd
      obtain ⟨file', h1, -⟩ := Option.map_eq_some_iff.mp ho
      unfold reader
      by_cases he : (nonce i, flag rest, r.1, r.2) ∈ known
      · rw [if_pos he]
        refine reader_forges k right known log hlog next rest (i + 1) file' h1 fun hsub => h ?_
        intro e hm
        rcases List.mem_cons.mp hm with rfl | hm
        · exact he
        · exact hsub hm
      · rw [if_neg he]
        simp only [forges]
        rw [if_neg (fun h => he ((hlog _).mp h))]
        exact Or.inl ⟨out, hd⟩
    · cases ho

/-! ## Limits -/

theorem within_mono (blocks : Nat → Nat → Nat) (n : Nat) (A : Adversary) : ∀ a b, a ≤ b → Within blocks n A a → Within blocks n A b := by
  induction A with
  | stop g => intros; trivial
  | encrypt nonce data msg msg' buffer next ih => exact fun a b h hA => ⟨hA.1, fun r => ih r a b h (hA.2 r)⟩
  | decrypt nonce data ct tag buffer next ih =>
    rintro a b h ⟨h1, a', rfl, h2⟩
    exact ⟨h1, b - 1, by omega, fun r => ih r a' (b - 1) (by omega) (h2 r)⟩

theorem costs_mono (cost : Nat → Nat) (A : Adversary) : ∀ s t, s ≤ t → Costs cost A s → Costs cost A t := by
  induction A with
  | stop g => intros; trivial
  | encrypt nonce data msg msg' buffer next ih =>
    rintro a b h ⟨a', rfl, h2⟩
    exact ⟨b - cost msg.length, by omega, fun r => ih r a' _ (by omega) (h2 r)⟩
  | decrypt nonce data ct tag buffer next ih =>
    rintro a b h ⟨a', rfl, h2⟩
    exact ⟨b - cost ct.length, by omega, fun r => ih r a' _ (by omega) (h2 r)⟩

theorem flag_length {α : Type} (l : List α) : (flag l).length = 1 := rfl

theorem writer_within {blocks : Nat → Nat → Nat} {n a : Nat} (next : List (Bytes × Bytes) → Adversary) (hnext : ∀ rs, Within blocks n (next rs) a) :
    ∀ (ps ps' : List Bytes) (i : Nat) (acc), (∀ p ∈ ps, blocks 1 p.length ≤ n) → Within blocks n (writer next i ps ps' acc) a
  | [], _, _, acc, _ => by unfold writer; exact hnext _
  | p :: ps, [], _, acc, _ => by unfold writer; exact hnext _
  | p :: ps, p' :: ps', i, acc, h => by
    unfold writer
    refine ⟨h p (List.mem_cons_self ..), fun r => ?_⟩
    cases r with
    | none => trivial
    | some r => exact writer_within next hnext ps ps' _ _ fun q hq => h q (List.mem_cons_of_mem _ hq)

theorem writer_costs {cost : Nat → Nat} {s : Nat} (next : List (Bytes × Bytes) → Adversary) (hnext : ∀ rs, Costs cost (next rs) s) :
    ∀ (ps ps' : List Bytes) (i : Nat) (acc), Costs cost (writer next i ps ps' acc) ((ps.map fun p => cost p.length).sum + s)
  | [], _, _, acc => by unfold writer; exact costs_mono _ _ _ _ (by simp) (hnext _)
  | p :: ps, [], _, acc => by unfold writer; exact costs_mono _ _ _ _ (by simp) (hnext _)
  | p :: ps, p' :: ps', i, acc => by
    unfold writer
    refine ⟨(ps.map fun p => cost p.length).sum + s, by simp [Nat.add_assoc], fun r => ?_⟩
    cases r with
    | none => trivial
    | some r => exact writer_costs next hnext ps ps' _ _

theorem reader_within {blocks : Nat → Nat → Nat} {n : Nat} (known : Log) (guess : Bool → Bool) :
    ∀ (rs : List (Bytes × Bytes)) (i : Nat), (∀ r ∈ rs, blocks 1 r.1.length ≤ n) → Within blocks n (reader known (fun ok => .stop (guess ok)) i rs) rs.length
  | [], _, _ => trivial
  | r :: rest, i, h => by
    have ih := reader_within known guess rest (i + 1) fun q hq => h q (List.mem_cons_of_mem _ hq)
    unfold reader
    split
    · exact within_mono _ _ _ _ _ (by simp) ih
    · refine ⟨h r (List.mem_cons_self ..), rest.length, rfl, fun a => ?_⟩
      rcases a with - | ⟨out, - | -⟩
      · trivial
      · trivial
      · exact ih

theorem reader_costs {cost : Nat → Nat} (known : Log) (guess : Bool → Bool) :
    ∀ (rs : List (Bytes × Bytes)) (i : Nat), Costs cost (reader known (fun ok => .stop (guess ok)) i rs) (rs.map fun r => cost r.1.length).sum
  | [], _ => trivial
  | r :: rest, i => by
    have ih := reader_costs (cost := cost) known guess rest (i + 1)
    unfold reader
    split
    · exact costs_mono _ _ _ _ (by simp) ih
    · refine ⟨(rest.map fun r => cost r.1.length).sum, by simp, fun a => ?_⟩
      rcases a with - | ⟨out, - | -⟩
      · trivial
      · trivial
      · exact ih

/-- What an attacker is allowed: pieces and records of at most `n` blocks, at most `a` records handed to the receiver, and at most `2^96` of each. -/
structure Limits (file file' : List Bytes) (tamper : List (Bytes × Bytes) → List (Bytes × Bytes)) (a n : Nat) : Prop where
  same : file.map List.length = file'.map List.length
  number : file.length ≤ 2 ^ 96
  pieces : ∀ p ∈ file, authCount 1 p.length ≤ n
  records : ∀ rs, (tamper rs).length ≤ a
  attempts : a ≤ 2 ^ 96
  blocks : ∀ rs, ∀ r ∈ tamper rs, authCount 1 r.1.length ≤ n

variable {file file' : List Bytes} {tamper : List (Bytes × Bytes) → List (Bytes × Bytes)} {a n : Nat}

theorem attack_within (L : Limits file file' tamper a n) (guess) : Within authCount n (attack file file' tamper guess) a := by
  refine writer_within _ (fun rs => ?_) file file' 0 [] L.pieces
  split
  · trivial
  · exact within_mono _ _ _ _ _ (L.records rs) (reader_within _ _ _ _ (L.blocks rs))

theorem attack_costs {cost : Nat → Nat} {s : Nat} (guess) (hs : ∀ rs, ((tamper rs).map fun r => cost r.1.length).sum ≤ s) :
    Costs cost (attack file file' tamper guess) ((file.map fun p => cost p.length).sum + s) := by
  refine writer_costs _ (fun rs => ?_) file file' 0 []
  split
  · trivial
  · exact costs_mono _ _ _ _ (hs rs) (reader_costs _ _ _ _)

theorem attack_play (hS : RoundTrip S) (L : Limits file file' tamper a n) (guess) (right : Bool) (k : K) :
    play S right k (attack file file' tamper guess) [] = true ↔
      ∃ rs, sealFile S k (if right then file' else file) = some rs ∧ guess rs (openFile S k (tamper rs)).isSome = true := by
  unfold attack
  rw [(writer_play right k _ file file' 0 [] [] L.same (by have := L.number; omega) (by simp)).1]
  unfold sealFile
  cases hs : sealFrom S k 0 (if right then file' else file) with
  | none => simp
  | some rs =>
    simp only [List.nil_append, List.append_nil, Option.some.injEq, exists_eq_left']
    unfold openFile
    by_cases ht : tamper rs = []
    · rw [if_pos ht, if_pos ht]; rfl
    · rw [if_neg ht, if_neg ht, reader_play k right (entries 0 rs) _ (by simp) (known_opens hS k _ 0 rs hs)]

theorem attack_forges (L : Limits file file' tamper a n) (guess) (k : K) (rs file'') (hs : sealFile S k file = some rs) (ho : openFile S k (tamper rs) = some file'')
    (hne : tamper rs ≠ rs) : forges S false k (attack file file' tamper guess) [] := by
  unfold attack
  rw [(writer_play false k _ file file' 0 [] [] L.same (by have := L.number; omega) (by simp)).2]
  unfold sealFile at hs
  simp only [Bool.false_eq_true, if_false, hs, List.nil_append, List.append_nil]
  unfold openFile at ho
  split at ho
  · cases ho
  · rename_i ht
    rw [if_neg ht]
    refine reader_forges k false (entries 0 rs) _ (by simp) _ _ 0 file'' ho fun hsub => hne ?_
    refine entries_subset _ _ 0 ?_ ?_ ht hsub
    · have := L.records rs
      have := L.attempts
      omega
    · rw [sealFrom_length k file 0 rs hs]
      have := L.number
      omega

/-! ## The theorems -/

theorem sealFrom_some (k : K) (hS : ∀ msg nonce data, nonce.length = 12 → msg.length ≤ 2 ^ 36 - 64 → data.length < 2 ^ 61 → ∃ r, S.enc k msg nonce data (zeros msg.length) = some r) :
    ∀ (file : List Bytes) (i : Nat), (∀ p ∈ file, p.length ≤ 2 ^ 36 - 64) → ∃ rs, sealFrom S k i file = some rs
  | [], _, _ => ⟨[], rfl⟩
  | p :: rest, i, h => by
    obtain ⟨r, hr⟩ := hS p (nonce i) (flag rest) (by simp [nonce]) (h p (List.mem_cons_self ..)) (by rw [flag_length]; norm_num)
    obtain ⟨rs, hrs⟩ := sealFrom_some k hS rest (i + 1) fun q hq => h q (List.mem_cons_of_mem _ hq)
    refine ⟨r :: rs, ?_⟩
    unfold sealFrom
    rw [hr]
    simp only
    rw [hrs]
    rfl

theorem aead_seals (p : AeadCipher × Nat) (hp : p ∈ sessionAeads) (m : Mode) (key : {k : Bytes // k.length = p.2}) (msg nonce data : Bytes) (hn : nonce.length = 12)
    (hm : msg.length ≤ 2 ^ 36 - 64) (hd : data.length < 2 ^ 61) : ∃ r, (withKeys (aeadScheme p.1 m) p.2).enc key msg nonce data (zeros msg.length) = some r := by
  obtain ⟨st, hst⟩ := new_of_length p hp key.1 key.2
  obtain ⟨ct, t, h⟩ := aead_encrypts p.1 (mem_aeads p hp) key.1 st hst msg nonce data (zeros msg.length) hn hm hd (by simp)
  refine ⟨(ct, t), ?_⟩
  change ((p.1.new key.1).bind fun s => p.1.encrypt m s msg nonce data (zeros msg.length)) = _
  rw [hst]
  exact h m

/-- **Files with pieces of at most `2^36 - 64` bytes are encrypted, and their receiver gets the file.** -/
theorem C154_round_trip (k : AesKind) (m : Mode) (file : List Bytes) (hf : file ≠ []) (hp : ∀ p ∈ file, p.length ≤ 2 ^ 36 - 64) :
    (∀ key, ∃ rs, sealFile (aesGcm k m) key file = some rs ∧ openFile (aesGcm k m) key rs = some file) ∧
    (∀ key, ∃ rs, sealFile (chachaPoly m) key file = some rs ∧ openFile (chachaPoly m) key rs = some file) := by
  refine ⟨fun key => ?_, fun key => ?_⟩
  · obtain ⟨rs, h⟩ := sealFrom_some (S := aesGcm k m) key (fun msg nonce data h1 h2 h3 => by
      cases k
      · exact aead_seals (gcmAead Aes.Aes128, 16) (by simp [sessionAeads]) m key msg nonce data h1 h2 h3
      · exact aead_seals (gcmAead Aes.Aes192, 24) (by simp [sessionAeads]) m key msg nonce data h1 h2 h3
      · exact aead_seals (gcmAead Aes.Aes256, 32) (by simp [sessionAeads]) m key msg nonce data h1 h2 h3) file 0 hp
    exact ⟨rs, h, file_roundTrip (aesGcm_roundTrip k m) key file hf rs h⟩
  · obtain ⟨rs, h⟩ := sealFrom_some (S := chachaPoly m) key (fun msg nonce data h1 h2 h3 =>
      aead_seals (ccpAead, 32) (by simp [sessionAeads]) m key msg nonce data h1 h2 h3) file 0 hp
    exact ⟨rs, h, file_roundTrip (chachaPoly_roundTrip m) key file hf rs h⟩

/-- **Anything but the whole file is rejected (ChaCha20-Poly1305 of the crate).** An attacker who sees the encrypted file and hands other records to the receiver - fewer, more, in another
order, repeated, or changed - has it accept with at most the advantage of the attack against the ChaCha20 block function, plus the bound for forging a tag. -/
theorem C154_chacha_integrity (m : Mode) (L : Limits file file tamper a n) (hn : n ≤ 2 ^ 34 - 16) :
    prob (fun key : ChaChaKey => ∃ rs out, sealFile (chachaPoly m) key file = some rs ∧ tamper rs ≠ rs ∧ openFile (chachaPoly m) key (tamper rs) = some out) ≤
      chachaAdvantage (chachaFromForger m false (attack file file tamper fun _ ok => ok)) + a * (1480 * n) / 2 ^ 106 :=
  le_trans (prob_mono fun key ⟨rs, out, hs, hne, ho⟩ => attack_forges L _ key rs out hs ho hne) (C120_ccp_forgery m _ a n hn (attack_within L _) false)

/-- **Anything but the whole file is rejected (AES-GCM of the crate)**, where `s` bounds the calls of AES for the records handed to the receiver. -/
theorem C154_aes_integrity (k : AesKind) (m : Mode) (L : Limits file file tamper a n) (hn : n ≤ 2 ^ 32 - 3) (s q : Nat)
    (hs : ∀ rs, ((tamper rs).map fun r => gcmCost r.1.length).sum ≤ s) (hq : q = (file.map fun p => gcmCost p.length).sum + s) :
    prob (fun key : AesKey k => ∃ rs out, sealFile (aesGcm k m) key file = some rs ∧ tamper rs ≠ rs ∧ openFile (aesGcm k m) key (tamper rs) = some out) ≤
      aesAdvantage k (aesFromForger m false (attack file file tamper fun _ ok => ok)) + a * n / 2 ^ 128 + q * (q - 1) / 2 ^ 129 :=
  le_trans (prob_mono fun key ⟨rs, out, hs, hne, ho⟩ => attack_forges L _ key rs out hs ho hne)
    (C120_gcm_forgery k m _ a n q hn (attack_within L _) (hq ▸ attack_costs _ hs) false)

/-- **The encrypted file shows nothing but the lengths of the pieces (ChaCha20-Poly1305 of the crate)**, also to an attacker who then learns whether the receiver accepts other records. -/
theorem C154_chacha_secrecy (m : Mode) (L : Limits file file' tamper a n) (hn : n ≤ 2 ^ 34 - 16) (guess : List (Bytes × Bytes) → Bool → Bool) :
    |prob (fun key : ChaChaKey => ∃ rs, sealFile (chachaPoly m) key file = some rs ∧ guess rs (openFile (chachaPoly m) key (tamper rs)).isSome = true) -
      prob (fun key : ChaChaKey => ∃ rs, sealFile (chachaPoly m) key file' = some rs ∧ guess rs (openFile (chachaPoly m) key (tamper rs)).isSome = true)| ≤
    chachaAdvantage (chachaFromGuesser m false (attack file file' tamper guess)) + chachaAdvantage (chachaFromGuesser m true (attack file file' tamper guess)) +
      2 * (a * (1480 * n) / 2 ^ 106) := by
  have h := C120_ccp_confidentiality m (attack file file' tamper guess) a n hn (attack_within L guess)
  simp only [attack_play (chachaPoly_roundTrip m) L] at h
  exact h

/-- **The encrypted file shows nothing but the lengths of the pieces (AES-GCM of the crate).** -/
theorem C154_aes_secrecy (k : AesKind) (m : Mode) (L : Limits file file' tamper a n) (hn : n ≤ 2 ^ 32 - 3) (s q : Nat)
    (hs : ∀ rs, ((tamper rs).map fun r => gcmCost r.1.length).sum ≤ s) (hq : q = (file.map fun p => gcmCost p.length).sum + s) (guess : List (Bytes × Bytes) → Bool → Bool) :
    |prob (fun key : AesKey k => ∃ rs, sealFile (aesGcm k m) key file = some rs ∧ guess rs (openFile (aesGcm k m) key (tamper rs)).isSome = true) -
      prob (fun key : AesKey k => ∃ rs, sealFile (aesGcm k m) key file' = some rs ∧ guess rs (openFile (aesGcm k m) key (tamper rs)).isSome = true)| ≤
    aesAdvantage k (aesFromGuesser m false (attack file file' tamper guess)) + aesAdvantage k (aesFromGuesser m true (attack file file' tamper guess)) +
      2 * (a * n / 2 ^ 128) + q * (q - 1) / 2 ^ 128 := by
  have h := C120_gcm_confidentiality k m (attack file file' tamper guess) a n q hn (attack_within L guess) (hq ▸ attack_costs _ hs)
  simp only [attack_play (aesGcm_roundTrip k m) L] at h
  exact h

/-! ## Concrete cases -/

/-- The attacker drops the last record of a file of two pieces. -/
theorem truncate_limits : Limits [[1, 2, 3], [4]] [[1, 2, 3], [4]] (fun rs => (rs.take 1).map fun r => (r.1.take 16, r.2)) 1 3 where
  same := rfl
  number := by norm_num
  pieces := by decide
  records rs := by simp
  attempts := by norm_num
  blocks rs r hr := by
    obtain ⟨q, -, rfl⟩ := List.mem_map.mp hr
    have : (q.1.take 16).length ≤ 16 := by simp
    show (1 + 15) / 16 + ((q.1.take 16).length + 15) / 16 + 1 ≤ 3
    omega

example (m : Mode) := C154_round_trip .aes128 m [[1, 2, 3], [], [4]] (by simp) (by decide)
example (m : Mode) := C154_chacha_integrity m truncate_limits (by norm_num)
example (k : AesKind) (m : Mode) := C154_aes_integrity k m truncate_limits (by norm_num) 3 9 (fun rs => by
  rcases rs with - | ⟨r, rest⟩
  · simp
  · simp [gcmCost]; omega) (by decide)

theorem truncate_two : Limits [[1, 2, 3], [4]] [[7, 8, 9], [5]] (fun rs => (rs.take 1).map fun r => (r.1.take 16, r.2)) 1 3 :=
  ⟨rfl, truncate_limits.number, truncate_limits.pieces, truncate_limits.records, truncate_limits.attempts, truncate_limits.blocks⟩

example (m : Mode) (guess) := C154_chacha_secrecy m truncate_two (by norm_num) guess
example (k : AesKind) (m : Mode) (guess) := C154_aes_secrecy k m truncate_two (by norm_num) 3 9 (fun rs => by
  rcases rs with - | ⟨r, rest⟩
  · simp
  · simp [gcmCost]; omega) (by decide) guess

end CryptoPure.Props.Files
