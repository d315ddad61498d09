import Verif.Proofs.LeakHash
import Verif.Leak.Ed25519

/-! The recorded X25519 and Ed25519 functions compute what the model computes; two runs on inputs of equal lengths are
observed alike. -/

namespace CryptoPure.Leak

namespace SLRun
open SL

theorem ck_total (t : Ty) (x : Int) : ∃ y, ck .release t x = some y := by
  unfold ck
  split <;> exact ⟨_, rfl⟩

theorem eval_total (env : Env) : ∀ e : Exp, ∃ y, eval .release env e = some y
  | .var x => ⟨_, rfl⟩
  | .lit n => ⟨_, rfl⟩
  | .add t a b => by
    obtain ⟨x, hx⟩ := eval_total env a
    obtain ⟨y, hy⟩ := eval_total env b
    obtain ⟨z, hz⟩ := ck_total t (x + y)
    exact ⟨z, by simp [eval, hx, hy, hz]⟩
  | .sub t a b => by
    obtain ⟨x, hx⟩ := eval_total env a
    obtain ⟨y, hy⟩ := eval_total env b
    obtain ⟨z, hz⟩ := ck_total t (x - y)
    exact ⟨z, by simp [eval, hx, hy, hz]⟩
  | .mul t a b => by
    obtain ⟨x, hx⟩ := eval_total env a
    obtain ⟨y, hy⟩ := eval_total env b
    obtain ⟨z, hz⟩ := ck_total t (x * y)
    exact ⟨z, by simp [eval, hx, hy, hz]⟩
  | .shr a k => by
    obtain ⟨x, hx⟩ := eval_total env a
    exact ⟨_, by simp only [eval, hx]; rfl⟩
  | .shl t a k => by
    obtain ⟨x, hx⟩ := eval_total env a
    exact ⟨_, by simp only [eval, hx]; rfl⟩
  | .cast32 a => by
    obtain ⟨x, hx⟩ := eval_total env a
    exact ⟨_, by simp only [eval, hx]; rfl⟩

/-- Without overflow checks straight-line code runs to its end and keeps the number of slots. -/
theorem run_total : ∀ (p : List Stmt) (env : Env), ∃ env', run .release p env = some env' ∧ env'.length = env.length
  | [], env => ⟨env, rfl, rfl⟩
  | s :: p, env => by
    obtain ⟨x, hx⟩ := eval_total env s.rhs
    obtain ⟨e, he, hl⟩ := run_total p (env.set s.dst x)
    exact ⟨e, by simp [run, hx, he], by simpa using hl⟩

end SLRun

namespace Fe
open Model (Fe)
open SLRun

theorem ck_alike (t : SL.Ty) (x y : Int) : Alike Any (op (SL.ck .release t x)) (op (SL.ck .release t y)) := by
  obtain ⟨a, ha⟩ := ck_total t x
  obtain ⟨b, hb⟩ := ck_total t y
  exact .op ⟨a, b, ha, hb, trivial⟩

theorem add_val (f g : Fe) : (add f g).val = Model.Fe.add .release f g := val_each _ _
theorem sub_val (f g : Fe) : (sub f g).val = Model.Fe.sub .release f g := val_each _ _
theorem neg_val (f : Fe) : (neg f).val = Model.Fe.neg .release f := val_each _ _
theorem mul_val (f g : Fe) : (mul f g).val = Model.Fe.mul .release f g := by
  unfold mul; rw [val_op]
theorem sq_val (f : Fe) : (sq f).val = Model.Fe.sq .release f := by
  unfold sq; rw [val_op]
theorem sq2_val (f : Fe) : (sq2 f).val = Model.Fe.sq2 .release f := by
  unfold sq2; rw [val_op]
theorem mul121666_val (f : Fe) : (mul121666 f).val = Model.Fe.mul121666 .release f := by
  unfold mul121666; rw [val_op]
theorem toBytes_val (f : Fe) : (toBytes f).val = Model.Fe.toBytes .release f := by
  unfold toBytes; rw [val_op]

theorem fromBytes_val (s : Bytes) : (fromBytes s).val = Model.Fe.fromBytes .release s := by
  unfold fromBytes
  rw [val_bind, val_check]
  simp only [val_op]
  have h : ∀ (c : Option Unit) (o : Option Fe), (c.bind fun _ => c.bind fun _ => o) = c.bind fun _ => o := by
    intro c o
    cases c <;> rfl
  exact h _ _

theorem squareMany_val (f : Fe) (i : Nat) : (squareMany f i).val = Model.Fe.squareMany .release f i := val_loop _ _ _

theorem invert_val (z : Fe) : (invert z).val = Model.Fe.invert .release z := by
  unfold invert Model.Fe.invert
  simp only [val_bind, mul_val, sq_val, squareMany_val, Option.bind_eq_bind]

theorem isNegative_val (f : Fe) : (isNegative f).val = Model.Fe.isNegative .release f := by
  unfold isNegative Model.Fe.isNegative
  rw [val_bind, toBytes_val]
  rfl

theorem add_alike {f g f' g' : Fe} (hf : SameLen f f') (hg : SameLen g g') : Alike SameLen (add f g) (add f' g') :=
  .each_len (fun _ _ => ck_alike _ _ _) (by rw [List.length_zip, List.length_zip, hf, hg])
theorem sub_alike {f g f' g' : Fe} (hf : SameLen f f') (hg : SameLen g g') : Alike SameLen (sub f g) (sub f' g') :=
  .each_len (fun _ _ => ck_alike _ _ _) (by rw [List.length_zip, List.length_zip, hf, hg])
theorem neg_alike {f f' : Fe} (hf : SameLen f f') : Alike SameLen (neg f) (neg f') :=
  .each_len (fun _ _ => ck_alike _ _ _) hf

theorem limbs_len {e e' : SL.Env} (h : e.length = e'.length) (o : Nat) :
    SameLen (Model.Fe.limbs e o) (Model.Fe.limbs e' o) := by simp [SameLen, Model.Fe.limbs, h]

/-- Straight-line code on equally many inputs. -/
theorem run_alike (p : List SL.Stmt) (n o : Nat) {x y : List Int} (h : x.length = y.length) :
    Alike SameLen
      (op (do let env ← SL.run .release p (x ++ List.replicate n 0); some (Model.Fe.limbs env o)))
      (op (do let env ← SL.run .release p (y ++ List.replicate n 0); some (Model.Fe.limbs env o))) := by
  obtain ⟨a, ha, hal⟩ := run_total p (x ++ List.replicate n 0)
  obtain ⟨b, hb, hbl⟩ := run_total p (y ++ List.replicate n 0)
  rw [ha, hb]
  exact .op ⟨_, _, rfl, rfl, limbs_len (by rw [hal, hbl]; simp [h]) o⟩

theorem mul_alike {f g f' g' : Fe} (hf : SameLen f f') (hg : SameLen g g') : Alike SameLen (mul f g) (mul f' g') :=
  run_alike _ _ _ (by rw [List.length_append, List.length_append, hf, hg])
theorem sq_alike {f f' : Fe} (hf : SameLen f f') : Alike SameLen (sq f) (sq f') := run_alike _ _ _ hf
theorem sq2_alike {f f' : Fe} (hf : SameLen f f') : Alike SameLen (sq2 f) (sq2 f') := run_alike _ _ _ hf
theorem mul121666_alike {f f' : Fe} (hf : SameLen f f') : Alike SameLen (mul121666 f) (mul121666 f') := run_alike _ _ _ hf

theorem fromBytes_alike {s s' : Bytes} (h : SameLen s s') : Alike SameLen (fromBytes s) (fromBytes s') := by
  refine .bind (.check (by rw [h])) fun _ _ hc => ?_
  have h1 : 32 ≤ s.length := by simpa using hc
  have h2 : 32 ≤ s'.length := by rw [← h]; exact h1
  unfold Model.Fe.fromBytes
  simp only [h1, h2, decide_true, assert, if_true, Option.bind_eq_bind, Option.bind_some]
  exact run_alike _ _ _ (by simp)

theorem toBytes_alike (f f' : Fe) : Alike SameLen (toBytes f) (toBytes f') := by
  unfold toBytes Model.Fe.toBytes
  obtain ⟨a, ha, _⟩ := run_total Model.FeWriteBytes.prog (f ++ List.replicate (Model.FeWriteBytes.size - 10) 0)
  obtain ⟨b, hb, _⟩ := run_total Model.FeWriteBytes.prog (f' ++ List.replicate (Model.FeWriteBytes.size - 10) 0)
  rw [ha, hb]
  exact .op ⟨_, _, rfl, rfl, by simp [SameLen, Model.Fe.storeBytes]⟩

theorem squareMany_alike {f f' : Fe} (i : Nat) (hf : SameLen f f') : Alike SameLen (squareMany f i) (squareMany f' i) :=
  Alike.loop (Q := (· = ·)) (R := SameLen) (fun _ _ _ _ h _ => sq_alike h) _ _ _ _ (forall₂_eq _) hf

theorem invert_alike {z z' : Fe} (hz : SameLen z z') : Alike SameLen (invert z) (invert z') := by
  unfold invert
  refine .bind (sq_alike hz) fun _ _ t0 => ?_
  refine .bind (sq_alike t0) fun _ _ t1 => ?_
  refine .bind (sq_alike t1) fun _ _ t1 => ?_
  refine .bind (mul_alike t1 hz) fun _ _ t1 => ?_
  refine .bind (mul_alike t0 t1) fun _ _ t0 => ?_
  refine .bind (sq_alike t0) fun _ _ t2 => ?_
  refine .bind (mul_alike t1 t2) fun _ _ t1 => ?_
  refine .bind (sq_alike t1) fun _ _ t2 => ?_
  refine .bind (squareMany_alike 5 t2) fun _ _ t2 => ?_
  refine .bind (mul_alike t1 t2) fun _ _ t1 => ?_
  refine .bind (sq_alike t1) fun _ _ t2 => ?_
  refine .bind (squareMany_alike 10 t2) fun _ _ t2 => ?_
  refine .bind (mul_alike t2 t1) fun _ _ t2 => ?_
  refine .bind (sq_alike t2) fun _ _ t3 => ?_
  refine .bind (squareMany_alike 20 t3) fun _ _ t3 => ?_
  refine .bind (mul_alike t2 t3) fun _ _ t2 => ?_
  refine .bind (squareMany_alike 11 t2) fun _ _ t2 => ?_
  refine .bind (mul_alike t1 t2) fun _ _ t1 => ?_
  refine .bind (sq_alike t1) fun _ _ t2 => ?_
  refine .bind (squareMany_alike 50 t2) fun _ _ t2 => ?_
  refine .bind (mul_alike t2 t1) fun _ _ t2 => ?_
  refine .bind (sq_alike t2) fun _ _ t3 => ?_
  refine .bind (squareMany_alike 100 t3) fun _ _ t3 => ?_
  refine .bind (mul_alike t2 t3) fun _ _ t2 => ?_
  refine .bind (squareMany_alike 51 t2) fun _ _ t2 => ?_
  refine .bind (mul_alike t1 t2) fun _ _ t1 => ?_
  refine .bind (squareMany_alike 6 t1) fun _ _ t1 => ?_
  exact mul_alike t1 t0

theorem isNegative_alike (f f' : Fe) : Alike Any (isNegative f) (isNegative f') :=
  .bind (toBytes_alike f f') fun _ _ _ => .pure trivial

end Fe

namespace X25519
open Fe
open Model.X25519 (Ladder clamp)
open Model.Fe (cswap)

theorem ladderStep_val (e : Bytes) (x1 : Model.Fe) (s : Ladder) (pos : Nat) :
    (ladderStep e x1 s pos).val = Model.X25519.ladderStep .release e x1 s pos := by
  unfold ladderStep Model.X25519.ladderStep
  simp only [val_bind, val_get, Option.bind_some, add_val, sub_val, mul_val, sq_val, mul121666_val, val_pure,
    Option.bind_eq_bind]

theorem scalarmult_val (n p : Bytes) : (scalarmult n p).val = Model.X25519.scalarmult .release n p := by
  unfold scalarmult Model.X25519.scalarmult
  simp only [val_bind, val_check, fromBytes_val, val_loop, ladderStep_val, invert_val, mul_val, toBytes_val,
    Option.bind_eq_bind]

/-- Ladder variables of equal shape. -/
structure SameShape (s t : Ladder) : Prop where
  x2 : SameLen s.x2 t.x2
  z2 : SameLen s.z2 t.z2
  x3 : SameLen s.x3 t.x3
  z3 : SameLen s.z3 t.z3

theorem cswap_len {f g f' g' : Model.Fe} (b b' : U32) (hf : SameLen f f') (hg : SameLen g g') :
    SameLen (cswap f g b).1 (cswap f' g' b').1 ∧ SameLen (cswap f g b).2 (cswap f' g' b').2 := by
  have hf : f.length = f'.length := hf
  have hg : g.length = g'.length := hg
  simp [SameLen, cswap, hf, hg]

theorem ladderStep_alike (e e' : Bytes) (x1 x1' : Model.Fe) (s t : Ladder) (pos : Nat) (hx : SameLen x1 x1')
    (h : SameShape s t) : Alike SameShape (ladderStep e x1 s pos) (ladderStep e' x1' t pos) := by
  unfold ladderStep
  refine .bind (R := Any) (.get trivial) fun b b' _ => ?_
  have hX := cswap_len (s.swap ^^^ ((b >>> (pos % 8)).setWidth 32 &&& 1)) (t.swap ^^^ ((b' >>> (pos % 8)).setWidth 32 &&& 1))
    h.x2 h.x3
  have hZ := cswap_len (s.swap ^^^ ((b >>> (pos % 8)).setWidth 32 &&& 1)) (t.swap ^^^ ((b' >>> (pos % 8)).setWidth 32 &&& 1))
    h.z2 h.z3
  dsimp only
  refine .bind (sub_alike hX.2 hZ.2) fun _ _ tmp0 => ?_
  refine .bind (sub_alike hX.1 hZ.1) fun _ _ tmp1 => ?_
  refine .bind (add_alike hX.1 hZ.1) fun _ _ x2 => ?_
  refine .bind (add_alike hX.2 hZ.2) fun _ _ z2 => ?_
  refine .bind (mul_alike tmp0 x2) fun _ _ z3 => ?_
  refine .bind (mul_alike z2 tmp1) fun _ _ z2 => ?_
  refine .bind (sq_alike tmp1) fun _ _ tmp0 => ?_
  refine .bind (sq_alike x2) fun _ _ tmp1 => ?_
  refine .bind (add_alike z3 z2) fun _ _ x3 => ?_
  refine .bind (sub_alike z3 z2) fun _ _ z2 => ?_
  refine .bind (mul_alike tmp1 tmp0) fun _ _ x2 => ?_
  refine .bind (sub_alike tmp1 tmp0) fun _ _ tmp1 => ?_
  refine .bind (sq_alike z2) fun _ _ z2 => ?_
  refine .bind (mul121666_alike tmp1) fun _ _ z3 => ?_
  refine .bind (sq_alike x3) fun _ _ x3 => ?_
  refine .bind (add_alike tmp0 z3) fun _ _ tmp0 => ?_
  refine .bind (mul_alike hx z2) fun _ _ z3 => ?_
  refine .bind (mul_alike tmp1 tmp0) fun _ _ z2 => ?_
  exact .pure ⟨x2, z2, x3, z3⟩

theorem scalarmult_alike (n p n' p' : Bytes) (hn : n.length = n'.length) (hp : p.length = p'.length) :
    Alike SameLen (scalarmult n p) (scalarmult n' p') := by
  unfold scalarmult
  refine .bind (.check (by rw [hn])) fun _ _ _ => .bind (.check (by rw [hp])) fun _ _ _ => ?_
  refine .bind (fromBytes_alike hp) fun x1 x1' hx => ?_
  refine .bind (Alike.loop (Q := (· = ·)) (R := SameShape)
    (fun s t i _ h e => by subst e; exact ladderStep_alike _ _ _ _ s t i hx h) _ _ _ _ (forall₂_eq _) ⟨rfl, rfl, hx, rfl⟩)
    fun s t h => ?_
  have hX := cswap_len s.swap t.swap h.x2 h.x3
  have hZ := cswap_len s.swap t.swap h.z2 h.z3
  dsimp only
  refine .bind (invert_alike hZ.1) fun _ _ z2 => ?_
  refine .bind (mul_alike hX.1 z2) fun _ _ x2 => ?_
  exact toBytes_alike _ _

end X25519

namespace Ed25519
open Fe
open Model.Ed25519 (GeP2 GeP3 GeP1p1 GePrecomp ck8 precompFrom p3ToP2 p3Zero precomp0 equal negative clampAz)

theorem geMadd_val (p : GeP3) (q : GePrecomp) : (geMadd p q).val = Model.Ed25519.geMadd .release p q := by
  unfold geMadd Model.Ed25519.geMadd
  simp only [val_bind, add_val, sub_val, mul_val, val_pure, Option.bind_eq_bind]

theorem p1p1ToP2_val (p : GeP1p1) : (p1p1ToP2 p).val = Model.Ed25519.p1p1ToP2 .release p := by
  unfold p1p1ToP2 Model.Ed25519.p1p1ToP2
  simp only [val_bind, mul_val, val_pure, Option.bind_eq_bind]

theorem p1p1ToP3_val (p : GeP1p1) : (p1p1ToP3 p).val = Model.Ed25519.p1p1ToP3 .release p := by
  unfold p1p1ToP3 Model.Ed25519.p1p1ToP3
  simp only [val_bind, mul_val, val_pure, Option.bind_eq_bind]

theorem p2Dbl_val (p : GeP2) : (p2Dbl p).val = Model.Ed25519.p2Dbl .release p := by
  unfold p2Dbl Model.Ed25519.p2Dbl
  simp only [val_bind, add_val, sub_val, sq_val, sq2_val, val_pure, Option.bind_eq_bind]

theorem p3Dbl_val (p : GeP3) : (p3Dbl p).val = Model.Ed25519.p3Dbl .release p := p2Dbl_val _

theorem toBytes_val (x y z : Model.Fe) : (toBytes x y z).val = Model.Ed25519.toBytes .release x y z := by
  unfold toBytes Model.Ed25519.toBytes
  simp only [val_bind, invert_val, mul_val, Fe.toBytes_val, isNegative_val, val_pure, Option.bind_eq_bind]

attribute [local irreducible] Model.Ed25519.BASE in
theorem select_val (pos : Nat) (b : Int) : (select pos b).val = Model.Ed25519.select .release pos b := by
  unfold select Model.Ed25519.select entry
  simp only [val_bind, val_op, val_index, val_get, neg_val, val_pure, Option.bind_eq_bind]
  congr 1
  funext babs
  cases Model.Ed25519.BASE[pos]? <;> simp only [Option.bind_none, Option.bind_some]

theorem nibbles_val (a : Bytes) : (nibbles a).val = some (Model.Ed25519.nibbles a) := by
  unfold nibbles Model.Ed25519.nibbles
  rw [val_bind, val_each_total _ (fun i => [((a.getD i 0 &&& 15).toNat : Int), (((a.getD i 0 >>> 4) &&& 15).toNat : Int)])
    (fun _ => rfl), Option.bind_some, List.flatMap_def, val_pure]

theorem recodeStep_val (s : List Int × Int) (i : Nat) : (recodeStep s i).val = Model.Ed25519.recodeStep .release s i := by
  unfold recodeStep Model.Ed25519.recodeStep
  simp only [val_bind, val_get, val_op, val_put, val_pure, Option.bind_some, Option.bind_eq_bind]

theorem recode_val (a : Bytes) : (recode a).val = Model.Ed25519.recode .release a := by
  unfold recode Model.Ed25519.recode
  simp only [val_bind, nibbles_val, val_loop, recodeStep_val, val_get, val_op, val_put, Option.bind_some, Option.bind_eq_bind]

theorem baseStep_val (e : List Int) (h : GeP3) (i : Nat) :
    (baseStep e h i).val = Model.Ed25519.baseStep .release e h i := by
  unfold baseStep Model.Ed25519.baseStep
  simp only [val_bind, val_get, select_val, geMadd_val, p1p1ToP3_val, Option.bind_some, Option.bind_eq_bind]

theorem scalarmultBase_val (a : Bytes) : (scalarmultBase a).val = Model.Ed25519.scalarmultBase .release a := by
  unfold scalarmultBase Model.Ed25519.scalarmultBase
  simp only [val_bind, recode_val, val_loop, baseStep_val, p3Dbl_val, p2Dbl_val, p1p1ToP2_val, p1p1ToP3_val,
    Option.bind_eq_bind]

theorem sha512_val (x : Bytes) : (Sha2.wrapper Sha2.Sha512 x).val = Model.Sha2.sha512 .release x :=
  Sha2.wrapper_val (Sha2.records_impl _ _ _ _) x

theorem genPk_val (sk : Bytes) : (genPk sk).val = Model.Ed25519.genPk .release sk := by
  unfold genPk Model.Ed25519.genPk
  simp only [val_bind, val_check, sha512_val, scalarmultBase_val, toBytes_val, Option.bind_eq_bind]

theorem hashParts_val (ps : List Bytes) : (hashParts ps).val = Model.Ed25519.hashParts .release ps := by
  have hH : Sha2.Records Sha2.Sha512 Model.Sha2.Sha512 (fun s => s) := Sha2.records_impl _ _ _ _
  unfold hashParts Model.Ed25519.hashParts
  rw [val_bind, val_loop, ← hH.default]
  have := Hmac.foldlM_map (f := fun s => s) (H := Sha2.Sha512) (M := Model.Sha2.Sha512)
    (fun s x => (Sha2.Sha512.update s x).val) (Model.Sha2.Sha512.update .release) hH.update ps Sha2.Sha512.default
  rw [← this]
  cases List.foldlM (fun s x => (Sha2.Sha512.update s x).val) Sha2.Sha512.default ps with
  | none => rfl
  | some s => exact hH.writeDigest s _

theorem sign_val (msg sk : Bytes) : (sign msg sk).val = Model.Ed25519.sign .release msg sk := by
  unfold sign Model.Ed25519.sign
  simp only [val_bind, val_check, sha512_val, scalarmultBase_val, toBytes_val, hashParts_val, val_op, val_copy,
    Option.bind_some, Option.bind_eq_bind]

/-- Points of equal shape. -/
structure Same3 (p q : GeP3) : Prop where
  x : SameLen p.x q.x
  y : SameLen p.y q.y
  z : SameLen p.z q.z
  t : SameLen p.t q.t
/-- Points of equal shape. -/
structure Same2 (p q : GeP2) : Prop where
  x : SameLen p.x q.x
  y : SameLen p.y q.y
  z : SameLen p.z q.z
/-- Points of equal shape. -/
structure Same1 (p q : GeP1p1) : Prop where
  x : SameLen p.x q.x
  y : SameLen p.y q.y
  z : SameLen p.z q.z
  t : SameLen p.t q.t
/-- Points of equal shape. -/
structure SameC (p q : GePrecomp) : Prop where
  a : SameLen p.yplusx q.yplusx
  b : SameLen p.yminusx q.yminusx
  c : SameLen p.xy2d q.xy2d

theorem geMadd_alike {p p' : GeP3} {q q' : GePrecomp} (h : Same3 p p') (hq : SameC q q') :
    Alike Same1 (geMadd p q) (geMadd p' q') := by
  unfold geMadd
  refine .bind (add_alike h.y h.x) fun _ _ rx => ?_
  refine .bind (sub_alike h.y h.x) fun _ _ ry => ?_
  refine .bind (mul_alike rx hq.a) fun _ _ rz => ?_
  refine .bind (mul_alike ry hq.b) fun _ _ ry => ?_
  refine .bind (mul_alike hq.c h.t) fun _ _ rt => ?_
  refine .bind (add_alike h.z h.z) fun _ _ t0 => ?_
  refine .bind (sub_alike rz ry) fun _ _ rx => ?_
  refine .bind (add_alike ry rz) fun _ _ ry => ?_
  refine .bind (add_alike t0 rt) fun _ _ rz => ?_
  refine .bind (sub_alike t0 rt) fun _ _ rt => ?_
  exact .pure ⟨rx, ry, rz, rt⟩

theorem p1p1ToP2_alike {p p' : GeP1p1} (h : Same1 p p') : Alike Same2 (p1p1ToP2 p) (p1p1ToP2 p') :=
  .bind (mul_alike h.x h.t) fun _ _ x => .bind (mul_alike h.y h.z) fun _ _ y => .bind (mul_alike h.z h.t) fun _ _ z =>
    .pure ⟨x, y, z⟩

theorem p1p1ToP3_alike {p p' : GeP1p1} (h : Same1 p p') : Alike Same3 (p1p1ToP3 p) (p1p1ToP3 p') :=
  .bind (mul_alike h.x h.t) fun _ _ x => .bind (mul_alike h.y h.z) fun _ _ y => .bind (mul_alike h.z h.t) fun _ _ z =>
    .bind (mul_alike h.x h.y) fun _ _ t => .pure ⟨x, y, z, t⟩

theorem p2Dbl_alike {p p' : GeP2} (h : Same2 p p') : Alike Same1 (p2Dbl p) (p2Dbl p') := by
  unfold p2Dbl
  refine .bind (sq_alike h.x) fun _ _ rx => ?_
  refine .bind (sq_alike h.y) fun _ _ rz => ?_
  refine .bind (sq2_alike h.z) fun _ _ rt => ?_
  refine .bind (add_alike h.x h.y) fun _ _ ry => ?_
  refine .bind (sq_alike ry) fun _ _ t0 => ?_
  refine .bind (add_alike rz rx) fun _ _ ry => ?_
  refine .bind (sub_alike rz rx) fun _ _ rz => ?_
  refine .bind (sub_alike t0 ry) fun _ _ rx => ?_
  refine .bind (sub_alike rt rz) fun _ _ rt => ?_
  exact .pure ⟨rx, ry, rz, rt⟩

theorem p3Dbl_alike {p p' : GeP3} (h : Same3 p p') : Alike Same1 (p3Dbl p) (p3Dbl p') := p2Dbl_alike ⟨h.x, h.y, h.z⟩

theorem toBytes_alike {x y z x' y' z' : Model.Fe} (hx : SameLen x x') (hy : SameLen y y') (hz : SameLen z z') :
    Alike SameLen (toBytes x y z) (toBytes x' y' z') :=
  .bind (invert_alike hz) fun _ _ r => .bind (mul_alike hx r) fun _ _ _ => .bind (mul_alike hy r) fun _ _ _ =>
    .bind (Fe.toBytes_alike _ _) fun _ _ s => .bind (isNegative_alike _ _) fun _ _ _ =>
      .pure (by rw [SameLen, List.length_set, List.length_set]; exact s)

theorem ck8_alike (x y : Int) : Alike Any (op (ck8 .release x)) (op (ck8 .release y)) := by
  have h : ∀ x, ∃ y, ck8 .release x = some y := fun x => by
    unfold ck8
    split <;> exact ⟨_, rfl⟩
  obtain ⟨a, ha⟩ := h x
  obtain ⟨b, hb⟩ := h y
  exact .op ⟨a, b, ha, hb, trivial⟩

theorem cmov_same {t u t' u' : GePrecomp} (b b' : U8) (ht : SameC t t') (hu : SameC u u') :
    SameC (Model.Ed25519.cmov t u b) (Model.Ed25519.cmov t' u' b') := by
  have key : ∀ {f g f' g' : Model.Fe} (b b' : U32), SameLen f f' → SameLen g g' →
      SameLen (Model.Fe.cmov f g b) (Model.Fe.cmov f' g' b') := by
    intro f g f' g' b b' hf hg
    have hf : f.length = f'.length := hf
    have hg : g.length = g'.length := hg
    simp [SameLen, Model.Fe.cmov, hf, hg]
  exact ⟨key _ _ ht.a hu.a, key _ _ ht.b hu.b, key _ _ ht.c hu.c⟩

theorem entry_alike (pos j : Nat) : Alike SameC (entry pos j) (entry pos j) :=
  .bind (Alike.index (R := (· = ·)) (forall₂_eq _)) fun _ _ h => by
    subst h
    exact .bind (Alike.get (R := (· = ·)) rfl) fun _ _ h => by
      subst h
      exact .pure ⟨rfl, rfl, rfl⟩

theorem select_alike (pos : Nat) (b b' : Int) : Alike SameC (select pos b) (select pos b') := by
  unfold select
  dsimp only
  refine .bind (ck8_alike _ _) fun _ _ _ => ?_
  have h0 : SameC precomp0 precomp0 := ⟨rfl, rfl, rfl⟩
  refine .bind (entry_alike pos 0) fun _ _ h => .bind (entry_alike pos 1) fun _ _ h1 => .bind (entry_alike pos 2) fun _ _ h2 => ?_
  refine .bind (entry_alike pos 3) fun _ _ h3 => .bind (entry_alike pos 4) fun _ _ h4 => .bind (entry_alike pos 5) fun _ _ h5 => ?_
  refine .bind (entry_alike pos 6) fun _ _ h6 => .bind (entry_alike pos 7) fun _ _ h7 => ?_
  have ht := fun a b c d e f g k a' b' c' d' e' f' g' k' =>
    cmov_same k k' (cmov_same g g' (cmov_same f f' (cmov_same e e' (cmov_same d d' (cmov_same c c' (cmov_same b b'
      (cmov_same a a' h0 h) h1) h2) h3) h4) h5) h6) h7
  refine .bind (neg_alike (ht _ _ _ _ _ _ _ _ _ _ _ _ _ _ _ _).c) fun _ _ hn => ?_
  exact .pure (cmov_same _ _ (ht _ _ _ _ _ _ _ _ _ _ _ _ _ _ _ _)
    ⟨(ht _ _ _ _ _ _ _ _ _ _ _ _ _ _ _ _).b, (ht _ _ _ _ _ _ _ _ _ _ _ _ _ _ _ _).a, hn⟩)

theorem recode_alike (a b : Bytes) : Alike Any (recode a) (recode b) := by
  unfold recode nibbles
  refine .bind (R := Any) (.bind (Alike.each (R := Any) (Q := (· = ·)) ?_ _ _ (forall₂_eq _)) fun _ _ _ => .pure trivial)
    fun ns ns' _ => ?_
  · rintro i _ rfl
    exact .bind (R := Any) (.get trivial) fun _ _ _ => .bind (R := Any) (.get trivial) fun _ _ _ => .pure trivial
  · refine .bind (Alike.loop (R := Any) (Q := (· = ·)) ?_ _ _ _ _ (forall₂_eq _) trivial) ?_
    · rintro s t i _ _ rfl
      exact .bind (R := Any) (.get trivial) fun _ _ _ => .bind (ck8_alike _ _) fun _ _ _ => .bind (ck8_alike _ _) fun _ _ _ =>
        .bind (ck8_alike _ _) fun _ _ _ => .bind (R := Any) ⟨rfl, trivial⟩ fun _ _ _ => .pure trivial
    · rintro ⟨e, c⟩ ⟨e', c'⟩ _
      exact .bind (R := Any) (.get trivial) fun _ _ _ => .bind (ck8_alike _ _) fun _ _ _ => ⟨rfl, trivial⟩

theorem baseStep_alike (e e' : List Int) (h h' : GeP3) (i : Nat) (hh : Same3 h h') :
    Alike Same3 (baseStep e h i) (baseStep e' h' i) :=
  .bind (R := Any) (.get trivial) fun _ _ _ => .bind (select_alike _ _ _) fun _ _ ht =>
    .bind (geMadd_alike hh ht) fun _ _ hr => p1p1ToP3_alike hr

theorem scalarmultBase_alike (a b : Bytes) : Alike Same3 (scalarmultBase a) (scalarmultBase b) := by
  unfold scalarmultBase
  refine .bind (recode_alike a b) fun e e' _ => ?_
  refine .bind (Alike.loop (R := Same3) (Q := (· = ·)) (fun h h' i _ hh q => by subst q; exact baseStep_alike e e' h h' i hh)
    _ _ _ _ (forall₂_eq _) ⟨rfl, rfl, rfl, rfl⟩) fun _ _ h => ?_
  refine .bind (p3Dbl_alike h) fun _ _ r => .bind (p1p1ToP2_alike r) fun _ _ s => ?_
  refine .bind (p2Dbl_alike s) fun _ _ r => .bind (p1p1ToP2_alike r) fun _ _ s => ?_
  refine .bind (p2Dbl_alike s) fun _ _ r => .bind (p1p1ToP2_alike r) fun _ _ s => ?_
  refine .bind (p2Dbl_alike s) fun _ _ r => .bind (p1p1ToP3_alike r) fun _ _ h => ?_
  exact Alike.loop (R := Same3) (Q := (· = ·)) (fun h h' i _ hh q => by subst q; exact baseStep_alike e e' h h' i hh)
    _ _ _ _ (forall₂_eq _) h

theorem clampAz_len (a b : Bytes) (h : a.length = b.length) : (clampAz a).length = (clampAz b).length := by
  simp [clampAz, h]

theorem steady512 : Sha2.Steady Sha2.Sha512 (Sha2.SamePos (w := 64)) := Sha2.steady_impl _ _ _ _

theorem genPk_alike (k k' : Bytes) (hk : k.length = k'.length) : Alike SameLen (genPk k) (genPk k') :=
  .bind (.check (by rw [hk])) fun _ _ _ => .bind (Sha2.wrapper_alike steady512 k k' hk) fun _ _ _ =>
    .bind (scalarmultBase_alike _ _) fun _ _ h => toBytes_alike h.x h.y h.z

theorem hashParts_alike (l l' : List Bytes) (h : List.Forall₂ SameLen l l') : Alike SameLen (hashParts l) (hashParts l') :=
  .bind (Alike.loop (fun s t x y h hx => steady512.update s t x y h hx) _ _ _ _ h steady512.default) fun _ _ h =>
    steady512.writeDigest _ _ _ _ h rfl

theorem reduce_alike (a b : Bytes) (h : a.length = b.length) :
    Alike SameLen (op (Model.Sc.reduce .release a)) (op (Model.Sc.reduce .release b)) := by
  unfold Model.Sc.reduce
  obtain ⟨x, hx, _⟩ := SLRun.run_total Model.ScReduce.prog (Model.Sc.load24 a ++ List.replicate (Model.ScReduce.size - 24) 0)
  obtain ⟨y, hy, _⟩ := SLRun.run_total Model.ScReduce.prog (Model.Sc.load24 b ++ List.replicate (Model.ScReduce.size - 24) 0)
  rw [hx, hy]
  exact .op ⟨_, _, rfl, rfl, by simp [SameLen, Model.Sc.store, h]⟩

theorem muladd_alike (a b c a' b' c' : Bytes) :
    Alike SameLen (op (Model.Sc.muladd .release a b c)) (op (Model.Sc.muladd .release a' b' c')) := by
  unfold Model.Sc.muladd
  obtain ⟨x, hx, _⟩ := SLRun.run_total Model.ScMuladd.prog
    (Model.Sc.load12 a ++ Model.Sc.load12 b ++ Model.Sc.load12 c ++ List.replicate (Model.ScMuladd.size - 36) 0)
  obtain ⟨y, hy, _⟩ := SLRun.run_total Model.ScMuladd.prog
    (Model.Sc.load12 a' ++ Model.Sc.load12 b' ++ Model.Sc.load12 c' ++ List.replicate (Model.ScMuladd.size - 36) 0)
  rw [hx, hy]
  exact .op ⟨_, _, rfl, rfl, by simp [SameLen, Model.Sc.store]⟩

theorem sign_alike (m k m' k' : Bytes) (hm : m.length = m'.length) (hk : k.length = k'.length) :
    Alike SameLen (sign m k) (sign m' k') := by
  unfold sign
  refine .bind (.check (by rw [hk])) fun _ _ _ => .bind (Sha2.wrapper_alike steady512 k k' hk) fun az az' haz => ?_
  have haz := clampAz_len az az' haz
  refine .bind (scalarmultBase_alike _ _) fun _ _ h => .bind (toBytes_alike h.x h.y h.z) fun _ _ hpk => ?_
  refine .bind (hashParts_alike _ _ (.cons (by simp [SameLen, haz]) (.cons hm .nil))) fun _ _ hn => ?_
  refine .bind (reduce_alike _ _ hn) fun _ _ hn => .bind (.copy rfl hpk) fun _ _ hs => ?_
  refine .bind (scalarmultBase_alike _ _) fun _ _ h => .bind (toBytes_alike h.x h.y h.z) fun _ _ hr => ?_
  refine .bind (.copy hs hr) fun _ _ hs => .bind (hashParts_alike _ _ (.cons hs (.cons hm .nil))) fun _ _ hh => ?_
  exact .bind (reduce_alike _ _ hh) fun _ _ hh => .bind (muladd_alike _ _ _ _ _ _) fun _ _ hq => .copy hs hq

end Ed25519
end CryptoPure.Leak
