import Verif.Model.Ed25519
import Verif.Model.X25519
import Verif.Model.Hkdf
import Verif.Model.Gcm
import Verif.Model.Poly1305

/-! A computation that succeeds with overflow checks gives the same result without. Compositional: every operation that
looks at the build mode satisfies it, and every construct of the model preserves it. -/

namespace CryptoPure.Proofs.Refine
open CryptoPure.Model SL

/-- What `f` returns with overflow checks it returns without. -/
def Ref {α : Type} (f : Mode → Option α) : Prop := ∀ x, f .debug = some x → f .release = some x

theorem Ref.const {α : Type} (o : Option α) : Ref fun _ => o := fun _ h => h

theorem Ref.bind {α β : Type} {f : Mode → Option α} {g : Mode → α → Option β} (hf : Ref f) (hg : ∀ x, Ref fun m => g m x) :
    Ref fun m => f m >>= g m := by
  intro x h
  simp only [Option.bind_eq_bind, Option.bind_eq_some_iff] at *
  obtain ⟨y, h1, h2⟩ := h
  exact ⟨y, hf y h1, hg y x h2⟩

theorem Ref.ite {α : Type} {c : Prop} [Decidable c] {f g : Mode → Option α} (hf : Ref f) (hg : Ref g) :
    Ref fun m => if c then f m else g m := by
  by_cases h : c
  · simpa only [if_pos h] using hf
  · simpa only [if_neg h] using hg

theorem Ref.foldlM {σ α : Type} {f : Mode → σ → α → Option σ} (hf : ∀ s a, Ref fun m => f m s a) (l : List α) (s : σ) :
    Ref fun m => l.foldlM (f m) s := by
  induction l generalizing s with
  | nil => exact Ref.const _
  | cons a l ih =>
    simp only [List.foldlM_cons]
    exact Ref.bind (hf s a) (fun x => ih x)

theorem Ref.mapM {α β : Type} {f : Mode → α → Option β} (hf : ∀ a, Ref fun m => f m a) (l : List α) :
    Ref fun m => l.mapM (f m) := by
  induction l with
  | nil => exact Ref.const _
  | cons a l ih =>
    simp only [List.mapM_cons]
    exact Ref.bind (hf a) (fun x => Ref.bind ih (fun y => Ref.const _))

theorem addC {w : Nat} (x y : BitVec w) : Ref fun m => CryptoPure.addC m x y := by
  intro z h
  unfold CryptoPure.addC at *
  dsimp only at *
  split at h
  · rename_i hc; rw [if_pos hc]; exact h
  · cases h

theorem mulC {w : Nat} (x y : BitVec w) : Ref fun m => CryptoPure.mulC m x y := by
  intro z h
  unfold CryptoPure.mulC at *
  dsimp only at *
  split at h
  · rename_i hc; rw [if_pos hc]; exact h
  · cases h

theorem ck (t : Ty) (x : Int) : Ref fun m => SL.ck m t x := by
  intro z h
  unfold SL.ck at *
  dsimp only at *
  split at h
  · rename_i hc; rw [if_pos hc]; exact h
  · cases h

theorem ck8 (x : Int) : Ref fun m => Ed25519.ck8 m x := by
  intro z h
  unfold Ed25519.ck8 at *
  dsimp only at *
  split at h
  · rename_i hc; rw [if_pos hc]; exact h
  · cases h

theorem ck32 (x : Nat) : Ref fun m => Poly1305.ck32 m x := by
  intro z h
  unfold Poly1305.ck32 at *
  dsimp only at *
  split at h
  · rename_i hc; rw [if_pos hc]; exact h
  · cases h

theorem rangeNext {w : Nat} (x : BitVec w) : Ref fun m => CryptoPure.rangeNext m x :=
  Ref.bind (addC _ _) (fun _ => Ref.const _)

theorem eval (env : Env) (e : Exp) : Ref fun m => SL.eval m env e := by
  induction e with
  | var | lit => exact Ref.const _
  | add t a b iha ihb | sub t a b iha ihb | mul t a b iha ihb =>
    exact Ref.bind iha (fun _ => Ref.bind ihb (fun _ => ck _ _))
  | shr a k ih | shl t a k ih | cast32 a ih => exact Ref.bind ih (fun _ => Ref.const _)

theorem run (p : List Stmt) (env : Env) : Ref fun m => SL.run m p env := by
  induction p generalizing env with
  | nil => exact Ref.const _
  | cons s p ih => exact Ref.bind (eval _ _) (fun _ => ih _)

/-- Decompose along the structure of the definition; leaves are closed by the given lemmas. -/
syntax "ref" "[" term,* "]" : tactic
macro_rules
  | `(tactic| ref [$ts,*]) => `(tactic|
      repeat' first
        | with_reducible exact Ref.const _
        $[| with_reducible exact $ts]*
        | with_reducible apply Ref.foldlM
        | with_reducible apply Ref.mapM
        | with_reducible apply Ref.ite
        | with_reducible refine Ref.bind ?_ ?_
        | intro _)

attribute [local irreducible] Ref

section field
open Fe
theorem fe_add (f g : Fe) : Ref fun m => Fe.add m f g := Ref.mapM (fun _ => ck _ _) _
theorem fe_sub (f g : Fe) : Ref fun m => Fe.sub m f g := Ref.mapM (fun _ => ck _ _) _
theorem fe_neg (f : Fe) : Ref fun m => Fe.neg m f := Ref.mapM (fun _ => ck _ _) _
theorem fe_mul (f g : Fe) : Ref fun m => Fe.mul m f g := Ref.bind (run _ _) (fun _ => Ref.const _)
theorem fe_sq (f : Fe) : Ref fun m => Fe.sq m f := Ref.bind (run _ _) (fun _ => Ref.const _)
theorem fe_sq2 (f : Fe) : Ref fun m => Fe.sq2 m f := Ref.bind (run _ _) (fun _ => Ref.const _)
theorem fe_mul121666 (f : Fe) : Ref fun m => Fe.mul121666 m f := Ref.bind (run _ _) (fun _ => Ref.const _)
theorem fe_fromBytes (s : Bytes) : Ref fun m => Fe.fromBytes m s :=
  Ref.bind (Ref.const _) (fun _ => Ref.bind (run _ _) (fun _ => Ref.const _))
theorem fe_toBytes (f : Fe) : Ref fun m => Fe.toBytes m f := Ref.bind (run _ _) (fun _ => Ref.const _)
theorem squareMany (f : Fe) (n : Nat) : Ref fun m => Fe.squareMany m f n := Ref.foldlM (fun _ _ => fe_sq _) _ _
theorem isNegative (f : Fe) : Ref fun m => Fe.isNegative m f := Ref.bind (fe_toBytes _) (fun _ => Ref.const _)
theorem isNonzero (f : Fe) : Ref fun m => Fe.isNonzero m f := Ref.bind (fe_toBytes _) (fun _ => Ref.const _)
theorem invert (f : Fe) : Ref fun m => Fe.invert m f := by
  unfold Fe.invert
  ref [fe_mul _ _, fe_sq _, squareMany _ _]
theorem pow22523 (f : Fe) : Ref fun m => Fe.pow22523 m f := by
  unfold Fe.pow22523
  ref [fe_mul _ _, fe_sq _, squareMany _ _]
theorem sc_reduce (s : Bytes) : Ref fun m => Sc.reduce m s := Ref.bind (run _ _) (fun _ => Ref.const _)
theorem sc_muladd (a b c : Bytes) : Ref fun m => Sc.muladd m a b c := Ref.bind (run _ _) (fun _ => Ref.const _)
end field

theorem x25519_step (e : Bytes) (x1 : Fe) (s : X25519.Ladder) (pos : Nat) : Ref fun m => X25519.ladderStep m e x1 s pos := by
  unfold X25519.ladderStep
  ref [fe_add _ _, fe_sub _ _, fe_mul _ _, fe_sq _, fe_mul121666 _]

theorem x25519 (n p : Bytes) : Ref fun m => X25519.scalarmult m n p := by
  unfold X25519.scalarmult
  ref [fe_fromBytes _, x25519_step _ _ _ _, invert _, fe_mul _ _, fe_toBytes _]

section ed
open Ed25519
theorem geAdd (p : GeP3) (q : GeCached) : Ref fun m => Ed25519.geAdd m p q := by
  unfold Ed25519.geAdd; ref [fe_add _ _, fe_sub _ _, fe_mul _ _]
theorem geSub (p : GeP3) (q : GeCached) : Ref fun m => Ed25519.geSub m p q := by
  unfold Ed25519.geSub; ref [fe_add _ _, fe_sub _ _, fe_mul _ _]
theorem geMadd (p : GeP3) (q : GePrecomp) : Ref fun m => Ed25519.geMadd m p q := by
  unfold Ed25519.geMadd; ref [fe_add _ _, fe_sub _ _, fe_mul _ _]
theorem geMsub (p : GeP3) (q : GePrecomp) : Ref fun m => Ed25519.geMsub m p q := by
  unfold Ed25519.geMsub; ref [fe_add _ _, fe_sub _ _, fe_mul _ _]
theorem p1p1ToP2 (p : GeP1p1) : Ref fun m => Ed25519.p1p1ToP2 m p := by
  unfold Ed25519.p1p1ToP2; ref [fe_mul _ _]
theorem p1p1ToP3 (p : GeP1p1) : Ref fun m => Ed25519.p1p1ToP3 m p := by
  unfold Ed25519.p1p1ToP3; ref [fe_mul _ _]
theorem p2Dbl (p : GeP2) : Ref fun m => Ed25519.p2Dbl m p := by
  unfold Ed25519.p2Dbl; ref [fe_add _ _, fe_sub _ _, fe_sq _, fe_sq2 _]
theorem p3Dbl (p : GeP3) : Ref fun m => Ed25519.p3Dbl m p := p2Dbl _
theorem ed_toBytes (x y z : Fe) : Ref fun m => Ed25519.toBytes m x y z := by
  unfold Ed25519.toBytes; ref [invert _, fe_mul _ _, fe_toBytes _, isNegative _]
theorem p3ToCached (p : GeP3) : Ref fun m => Ed25519.p3ToCached m p := by
  unfold Ed25519.p3ToCached; ref [fe_add _ _, fe_sub _ _, fe_mul _ _]
attribute [local irreducible] BASE in
theorem select (pos : Nat) (b : Int) : Ref fun m => Ed25519.select m pos b := by
  unfold Ed25519.select; ref [ck8 _, fe_neg _]
theorem recodeStep (s : List Int × Int) (i : Nat) : Ref fun m => Ed25519.recodeStep m s i := by
  unfold Ed25519.recodeStep; ref [ck8 _]
theorem recode (a : Bytes) : Ref fun m => Ed25519.recode m a := by
  unfold Ed25519.recode; ref [recodeStep _ _, ck8 _]
theorem baseStep (e : List Int) (h : GeP3) (i : Nat) : Ref fun m => Ed25519.baseStep m e h i := by
  unfold Ed25519.baseStep; ref [select _ _, geMadd _ _, p1p1ToP3 _]
theorem scalarmultBase (a : Bytes) : Ref fun m => Ed25519.scalarmultBase m a := by
  unfold Ed25519.scalarmultBase
  ref [recode _, baseStep _ _ _, p3Dbl _, p2Dbl _, p1p1ToP2 _, p1p1ToP3 _]
theorem slideInner (i : Nat) (bs : List Nat) (r : List Int) : Ref fun m => Ed25519.slideInner m i bs r := by
  induction bs generalizing r with
  | nil => exact Ref.const _
  | cons b bs ih => unfold Ed25519.slideInner; ref [ck8 _, ih _]
theorem slide (a : Bytes) : Ref fun m => Ed25519.slide m a := by
  unfold Ed25519.slide; ref [slideInner _ _ _]
attribute [local irreducible] BI in
theorem doubleStep (as bs : List Int) (ai : List GeCached) (r : GeP2) (i : Nat) :
    Ref fun m => Ed25519.doubleStep m as bs ai r i := by
  unfold Ed25519.doubleStep
  ref [p2Dbl _, p1p1ToP3 _, p1p1ToP2 _, ck8 _, geAdd _ _, geSub _ _, geMadd _ _, geMsub _ _]
theorem cachedTable (ga : GeP3) : Ref fun m => Ed25519.cachedTable m ga := by
  unfold Ed25519.cachedTable
  ref [p3ToCached _, p3Dbl _, p1p1ToP3 _, geAdd _ _]
theorem doubleScalarmult (a : Bytes) (ga : GeP3) (b : Bytes) : Ref fun m => Ed25519.doubleScalarmult m a ga b := by
  unfold Ed25519.doubleScalarmult
  ref [slide _, cachedTable _, doubleStep _ _ _ _ _]
theorem fromBytesNegate (s : Bytes) : Ref fun m => Ed25519.fromBytesNegate m s := by
  unfold Ed25519.fromBytesNegate
  ref [fe_fromBytes _, fe_add _ _, fe_sub _ _, fe_mul _ _, fe_sq _, fe_neg _, pow22523 _, isNonzero _, isNegative _]
  rename_i o
  cases o with
  | none => exact Ref.const _
  | some x => ref [fe_mul _ _, fe_neg _, isNegative _]
end ed

/-! ### Hashes -/

/-- A hash whose methods satisfy the relation. -/
structure RefHash (H : Sha2.HashFunction) : Prop where
  up : ∀ s x, Ref fun m => H.update m s x
  fin : ∀ s o, Ref fun m => H.writeDigest m s o

section sha
open Sha2
theorem sha_update {w : Nat} (P : Params w) (s : Proc w) (x : Bytes) : Ref fun m => Sha2.update P m s x := by
  unfold Sha2.update; ref [addC _ _]
theorem sha_pad {w : Nat} (P : Params w) (s : Proc w) : Ref fun m => Sha2.pad P m s := by
  unfold Sha2.pad; ref [mulC _ _]
theorem refHash_impl {w : Nat} (P : Params w) (iv : Oct w) (n b : Nat) : RefHash (Sha2.implFunction P iv n b) := by
  refine ⟨fun s x => sha_update P s x, fun s o => ?_⟩
  exact Ref.bind (Ref.const _) (fun _ => Ref.bind (sha_pad P s) (fun _ => Ref.const _))

variable {H : HashFunction} (h : RefHash H)
include h
theorem sha_wrapper (x : Bytes) : Ref fun m => Sha2.wrapper H m x := by
  unfold Sha2.wrapper; ref [h.up _ _, h.fin _ _]
theorem keyed (key : Bytes) (pad : U8) : Ref fun m => Hmac.keyedHashFunction H m key pad := by
  unfold Hmac.keyedHashFunction; ref [h.up _ _]
theorem hmac_new (key : Bytes) : Ref fun m => Hmac.new H m key := by
  unfold Hmac.new; ref [h.up _ _, h.fin _ _, keyed h _ _]
theorem hmac_update (s : Hmac.Hmac H) (x : Bytes) : Ref fun m => Hmac.update m s x := by
  unfold Hmac.update; ref [h.up _ _]
theorem hmac_writeTag (s : Hmac.Hmac H) (o : Bytes) : Ref fun m => Hmac.writeTag m s o := by
  unfold Hmac.writeTag; ref [h.up _ _, h.fin _ _]
theorem hmac_tag (s : Hmac.Hmac H) : Ref fun m => Hmac.tag m s := by
  unfold Hmac.tag; ref [hmac_writeTag h _ _]
theorem hmac_wrapper (k x : Bytes) : Ref fun m => Hmac.wrapper H m k x := by
  unfold Hmac.wrapper; ref [hmac_new h _, hmac_update h _ _, hmac_writeTag h _ _]
theorem hmac_verify (k x t : Bytes) : Ref fun m => Hmac.verify H m k x t := by
  unfold Hmac.verify; ref [hmac_new h _, hmac_update h _ _, hmac_tag h _]
theorem extract (salt ikm prk : Bytes) : Ref fun m => Hkdf.extract H m salt ikm prk := by
  unfold Hkdf.extract; ref [hmac_new h _, hmac_update h _ _, hmac_tag h _]
theorem expandLoop (prk info : Bytes) (cs : List Bytes) (i : U8) (s : Hmac.Hmac H) :
    Ref fun m => Hkdf.expandLoop H m prk info cs i s := by
  induction cs generalizing i s with
  | nil => unfold Hkdf.expandLoop; ref [rangeNext _]
  | cons c cs ih => unfold Hkdf.expandLoop; ref [rangeNext _, hmac_new h _, hmac_update h _ _, hmac_tag h _, ih _ _]
theorem expand (prk info okm : Bytes) : Ref fun m => Hkdf.expand H m prk info okm := by
  unfold Hkdf.expand; ref [hmac_new h _, expandLoop h _ _ _ _ _]
end sha

theorem ed_hashParts (ps : List Bytes) : Ref fun m => Ed25519.hashParts m ps := by
  unfold Ed25519.hashParts
  exact Ref.bind (Ref.foldlM (fun s x => (refHash_impl _ _ _ _).up s x) _ _) (fun s => (refHash_impl _ _ _ _).fin s _)
theorem sha512 (x : Bytes) : Ref fun m => Sha2.sha512 m x := sha_wrapper (refHash_impl _ _ _ _) x

theorem ed_genPk (sk : Bytes) : Ref fun m => Ed25519.genPk m sk := by
  unfold Ed25519.genPk; ref [sha512 _, scalarmultBase _, ed_toBytes _ _ _]
theorem ed_sign (x sk : Bytes) : Ref fun m => Ed25519.sign m x sk := by
  unfold Ed25519.sign
  ref [sha512 _, scalarmultBase _, ed_toBytes _ _ _, ed_hashParts _, sc_reduce _, sc_muladd _ _ _]
theorem ed_verify (x sig pk : Bytes) : Ref fun m => Ed25519.verify m x sig pk := by
  unfold Ed25519.verify
  refine Ref.bind (Ref.const _) (fun _ => Ref.ite (Ref.const _) (Ref.bind (fromBytesNegate _) (fun o => ?_)))
  cases o with
  | none => exact Ref.const _
  | some a => ref [ed_hashParts _, sc_reduce _, doubleScalarmult _ _ _, ed_toBytes _ _ _]

/-! ### Ciphers -/

theorem stream_next (s : ChaCha20.Stream) : Ref fun m => s.next m := by
  unfold ChaCha20.Stream.next; ref [addC _ _]
theorem stream_loop (s : ChaCha20.Stream) (x : Bytes) : Ref fun m => s.processLoop m x := by
  induction x generalizing s with
  | nil => exact Ref.const _
  | cons z zs ih => unfold ChaCha20.Stream.processLoop; ref [stream_next _, ih _]
theorem stream_process (s : ChaCha20.Stream) (x o : Bytes) : Ref fun m => s.process m x o := by
  unfold ChaCha20.Stream.process; ref [stream_loop _ _]

theorem ghash (k d c : Bytes) : Ref fun m => GHash.ghash m k d c := by
  unfold GHash.ghash GHash.GHash.update GHash.GHash.writeTag
  ref [addC _ _, mulC _ _]

section gcm
variable (E : Aes.BlockCipher)
theorem gcm_loop (st : E.State) (ctr : Bytes) (i : U32) (l : List (Bytes × Bytes)) :
    Ref fun m => Gcm.processLoop E m st ctr i l := by
  induction l generalizing ctr i with
  | nil => unfold Gcm.processLoop; ref [rangeNext _]
  | cons p l ih => unfold Gcm.processLoop; ref [rangeNext _, ih _ _]
theorem gcm_process (st : E.State) (ctr x o : Bytes) : Ref fun m => Gcm.process E m st ctr x o := by
  unfold Gcm.process; ref [gcm_loop E _ _ _ _]
theorem gcm_tag (st : E.State) (c d ctr : Bytes) : Ref fun m => Gcm.tag E m st c d ctr := by
  unfold Gcm.tag Gcm.ghash; ref [ghash _ _ _]
theorem gcm_encrypt (st : E.State) (x n d o : Bytes) : Ref fun m => Gcm.encrypt E m st x n d o := by
  unfold Gcm.encrypt; ref [gcm_process E _ _ _ _, gcm_tag E _ _ _ _]
theorem gcm_decrypt (st : E.State) (x n d t o : Bytes) : Ref fun m => Gcm.decrypt E m st x n d t o := by
  unfold Gcm.decrypt; ref [gcm_process E _ _ _ _, gcm_tag E _ _ _ _]
end gcm

section poly
open Poly1305
theorem addLoop (u : Nat) (l : List (Nat × U8)) : Ref fun m => Poly1305.addLoop m u l := by
  induction l generalizing u with
  | nil => exact Ref.const _
  | cons p l ih => obtain ⟨a, b⟩ := p; unfold Poly1305.addLoop; ref [ck32 _, ih _]
theorem add (h : List Nat) (c : Bytes) (b : Nat) : Ref fun m => Poly1305.add m h c b := by
  unfold Poly1305.add; ref [addLoop _ _, ck32 _]
theorem carryLoop (u : Nat) (l : List Nat) : Ref fun m => Poly1305.carryLoop m u l := by
  induction l generalizing u with
  | nil => exact Ref.const _
  | cons p l ih => unfold Poly1305.carryLoop; ref [ck32 _, ih _]
theorem squeeze (h : List Nat) : Ref fun m => Poly1305.squeeze m h := by
  unfold Poly1305.squeeze; ref [carryLoop _ _, ck32 _]
theorem mulRow (h : List Nat) (r : Bytes) (i : Nat) : Ref fun m => Poly1305.mulRow m h r i := by
  unfold Poly1305.mulRow; ref [ck32 _]
theorem mulmod (h : List Nat) (r : Bytes) : Ref fun m => Poly1305.mulmod m h r := by
  unfold Poly1305.mulmod; ref [mulRow _ _ _, squeeze _]
theorem poly_process (f : PolyFunction) (x : Bytes) : Ref fun m => f.process m x := by
  unfold PolyFunction.process; ref [add _ _ _, mulmod _ _]
theorem freeze (h : List Nat) : Ref fun m => Poly1305.freeze m h := by
  unfold Poly1305.freeze; ref [add _ _ _]
theorem poly_value (f : PolyFunction) : Ref fun m => f.value m := by
  unfold PolyFunction.value; ref [add _ _ _, freeze _]
theorem processChunk (f : PolyFunction) (x : Bytes) : Ref fun m => Poly1305.processChunk m f x := by
  unfold Poly1305.processChunk; ref [poly_process _ _]
theorem mac_process (p : Poly1305.Poly1305) (x : Bytes) : Ref fun m => p.process m x := by
  unfold Poly1305.Poly1305.process; ref [processChunk _ _]
theorem poly1305 (k d c : Bytes) : Ref fun m => Poly1305.poly1305 m k d c := by
  unfold Poly1305.poly1305 Poly1305.Poly1305.new Poly1305.Poly1305.update Poly1305.Poly1305.writeTag
  ref [mac_process _ _, addC _ _, poly_process _ _, poly_value _]
theorem ccp_loop (c : List U32) (i : U32) (l : List (Bytes × Bytes)) : Ref fun m => Poly1305.processLoop m c i l := by
  induction l generalizing i with
  | nil => unfold Poly1305.processLoop; ref [rangeNext _]
  | cons p l ih => unfold Poly1305.processLoop; ref [rangeNext _, ih _]
theorem ccp_process (c : List U32) (x o : Bytes) : Ref fun m => CryptoPure.Model.Poly1305.process m c x o := by
  unfold CryptoPure.Model.Poly1305.process; ref [ccp_loop _ _ _]
theorem ccp_encrypt (k x n d o : Bytes) : Ref fun m => Poly1305.encrypt m k x n d o := by
  unfold Poly1305.encrypt Poly1305.tag; ref [ccp_process _ _ _, poly1305 _ _ _]
theorem ccp_decrypt (k x n d t o : Bytes) : Ref fun m => Poly1305.decrypt m k x n d t o := by
  unfold Poly1305.decrypt Poly1305.tag; ref [ccp_process _ _ _, poly1305 _ _ _]
end poly

end CryptoPure.Proofs.Refine
