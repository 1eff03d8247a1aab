import Verif.Stmt
import Verif.Subst

/-!
# Model of `deshadow` (`slinky/builder/optimizations.cc`)

`deshadow` renames the declarations that shadow a symbol. The class `deshadower` is a `substitutor` (substitute.cc), which visits every node of a
statement.

Simplifications:
* the symbols are numbers; `node_context::insert_unique` (see C36) makes a new symbol, the next number; the names are not modelled;
* a node that does not change is not copied by the code; here, it is rebuilt the same (except the flag of a closure, which the code drops if the
  `let_stmt` changes: it is always dropped here; and a block in which nothing changes is not flattened by the code);
* a declaration by an `async` that has no symbol indexes `symbols` with an undefined symbol in the code: such a statement is left as it is here.
-/

namespace Slinky

/-- optimizations.cc:1672 `symbol_map<var> symbols`: the names of the symbols that are declared. -/
abbrev Ren := Nat → Option Nat

/-- optimizations.cc:1689-1692 `visit_symbol` -/
def Ren.sym (σ : Ren) (x : Nat) : Nat := (σ x).getD x

/-- `set_value_in_scope(symbols, x, z)` -/
def Ren.set (σ : Ren) (x z : Nat) : Ren := fun y => if y = x then some z else σ y

/-- optimizations.cc:1694-1698 `enter_decl`: the symbol that is declared, given the next new symbol. -/
def Ren.declSym (σ : Ren) (n x : Nat) : Nat := if (σ x).isSome then n else x
/-- The next new symbol after `enter_decl`. -/
def Ren.declNext (σ : Ren) (n x : Nat) : Nat := if (σ x).isSome then n + 1 else n
/-- The names after `enter_decl`. -/
def Ren.decl (σ : Ren) (n x : Nat) : Ren := σ.set x (σ.declSym n x)

/-- A function that needs new symbols, for each element of a list. -/
def mapAcc {α β : Type} (f : Nat → α → β × Nat) : Nat → List α → List β × Nat
  | n, [] => ([], n)
  | n, a :: as => ((f n a).1 :: (mapAcc f (f n a).2 as).1, (mapAcc f (f n a).2 as).2)

mutual
/-- `deshadower` on expressions: substitute.cc:471-486 and 665-706, 440-467 (`mutate_let`), node_mutator.cc:27-190. The second result is the
next new symbol. -/
def dsE (σ : Ren) (n : Nat) : Expr → Expr × Nat
  | .undef => (.undef, n)
  | .var x f d => (.var (σ.sym x) f d, n)
  | .const c => (.const c, n)
  | .lets bs b =>
    let r := dsB σ n bs
    let rb := dsE r.2.1 r.2.2 b
    (.lets r.1 rb.1, rb.2)
  | .bin op a b =>
    let ra := dsE σ n a
    let rb := dsE σ ra.2 b
    (rebuildBin op a b ra.1 rb.1, rb.2)
  | .not a =>
    let ra := dsE σ n a
    (.not ra.1, ra.2)
  | .select c t f =>
    let rc := dsE σ n c
    let rt := dsE σ rc.2 t
    let rf := dsE σ rt.2 f
    (.select rc.1 rt.1 rf.1, rf.2)
  | .call fn as =>
    let r := dsA σ n as
    (.call fn (fixBufferAt (fun _ => 0) (fun _ _ => .undef) fn r.1), r.2)
/-- See `dsE`. -/
def dsA (σ : Ren) (n : Nat) : Exprs → Exprs × Nat
  | .nil => (.nil, n)
  | .cons e es =>
    let r := dsE σ n e
    let rs := dsA σ r.2 es
    (.cons r.1 rs.1, rs.2)
/-- substitute.cc:440-467 `mutate_let`. Also the names after the declarations. -/
def dsB (σ : Ren) (n : Nat) : Binds → Binds × Ren × Nat
  | .nil => (.nil, σ, n)
  | .cons x e bs =>
    let r := dsE σ n e
    let rs := dsB (σ.decl r.2 x) (σ.declNext r.2 x) bs
    (.cons (σ.declSym r.2 x) r.1 rs.1, rs.2)
end

/-- node_mutator.h:77-83 -/
def dsI (σ : Ren) (n : Nat) (i : Interval) : Interval × Nat :=
  if i.isPoint then
    let r := dsE σ n i.min
    (.point r.1, r.2)
  else
    let a := dsE σ n i.min
    let b := dsE σ a.2 i.max
    (⟨a.1, b.1, i.same⟩, b.2)

/-- optimizations.cc:1729-1731, 1750-1752 -/
def dsD (σ : Ren) (n : Nat) (d : DimE) : DimE × Nat :=
  let b := dsI σ n d.bounds
  let s := dsE σ b.2 d.stride
  let f := dsE σ s.2 d.fold
  (⟨b.1, s.1, f.1⟩, f.2)

/-- The end of an interval that crops dimension `d` of the buffer `z` is omitted if it is the bound of the buffer. -/
def dropEnd (z : Nat) (f : Field) (d : Nat) (e : Expr) : Expr := if e = .var z f d then .undef else e

/-- The max of an interval. -/
def Interval.maxEnd (i : Interval) : Expr := if i.isPoint then i.min else i.max

/-- substitute.cc:593-618 `substitute_crop_bounds`, given the mutated bounds, for a `substitutor` whose `mutate_variable` returns what it is
given. The two ends of a point are one expression. -/
def dropOwn (z d : Nat) (i : Interval) : Interval :=
  if i.min = .var z .min d ∨ i.maxEnd = .var z .max d then ⟨dropEnd z .min d i.min, dropEnd z .max d i.maxEnd, false⟩ else i

/-- substitute.cc:622-629 -/
def dsC (σ : Ren) (z : Nat) : Nat → Nat → List Interval → List Interval × Nat
  | _, n, [] => ([], n)
  | d, n, i :: is =>
    let r := dsI σ n i
    let rs := dsC σ z (d + 1) r.2 is
    (dropOwn z d r.1 :: rs.1, rs.2)

/-- substitute.cc:758-768 the declarations of a `copy_stmt` -/
def dsDecls (σ : Ren) (n : Nat) : List Nat → List Nat × Ren × Nat
  | [] => ([], σ, n)
  | x :: xs =>
    let r := dsDecls (σ.decl n x) (σ.declNext n x) xs
    (σ.declSym n x :: r.1, r.2)

mutual
/-- optimizations.cc:1670-1765 `deshadower`, with the visitors of `substitutor` (substitute.cc:440-790) and of `node_mutator` (`block`, `check`). -/
def dsS (σ : Ren) (n : Nat) : Stmt → Stmt × Nat
  | .undef => (.undef, n)
  | .call t i o xs =>
    let r := mapAcc (dsE σ) n xs
    (.call t (i.map σ.sym) (o.map σ.sym) r.1, r.2)
  | .copy t src xs dst ys pad =>
    let r := dsDecls σ n ys
    let rx := mapAcc (dsE r.2.1) r.2.2 xs
    (.copy t (σ.sym src) rx.1 (σ.sym dst) r.1 (pad.map σ.sym), rx.2)
  | .lets bs body _ =>
    let r := dsB σ n bs
    let rb := dsS r.2.1 r.2.2 body
    (.lets r.1 rb.1 false, rb.2)
  | .block .nil => (.block .nil, n)
  | .block (.cons s ss) =>
    let r := dsS σ n s
    let rs := dsSs σ r.2 ss
    (blockMake (r.1 :: rs.1.toList), rs.2)
  | .loop x wk b st body =>
    let rb := dsI σ n b
    let rs := dsE σ rb.2 st
    let rw := dsE σ rs.2 wk
    let r := dsS (σ.decl rw.2 x) (σ.declNext rw.2 x) body
    (.loop (σ.declSym rw.2 x) rw.1 rb.1 rs.1 r.1, r.2)
  | .allocate x sto e ds body =>
    let re := dsE σ n e
    let rd := mapAcc (dsD σ) re.2 ds
    let r := dsS (σ.set x x) rd.2 body
    (.allocate x sto re.1 rd.1 r.1, r.2)
  | .makeBuffer x p e ds body =>
    let rp := dsE σ n p
    let re := dsE σ rp.2 e
    let rd := mapAcc (dsD σ) re.2 ds
    let r := dsS (σ.set x rd.2) (rd.2 + 1) body
    (.makeBuffer rd.2 rp.1 re.1 rd.1 r.1, r.2)
  | .constantBuffer x b body =>
    let r := dsS (σ.decl n x) (σ.declNext n x) body
    (.constantBuffer (σ.declSym n x) b r.1, r.2)
  | .cloneBuffer x src body =>
    let r := dsS (σ.decl n x) (σ.declNext n x) body
    (.cloneBuffer (σ.declSym n x) (σ.sym src) r.1, r.2)
  | .cropBuffer x src bs body =>
    let rb := dsC σ (σ.sym src) 0 n bs
    let r := dsS (σ.decl rb.2 x) (σ.declNext rb.2 x) body
    (.cropBuffer (σ.declSym rb.2 x) (σ.sym src) rb.1 r.1, r.2)
  | .cropDim x src d b body =>
    let rb := dsI σ n b
    let r := dsS (σ.decl rb.2 x) (σ.declNext rb.2 x) body
    (.cropDim (σ.declSym rb.2 x) (σ.sym src) d (dropOwn (σ.sym src) d rb.1) r.1, r.2)
  | .sliceBuffer x src es body =>
    let re := mapAcc (dsE σ) n es
    let r := dsS (σ.decl re.2 x) (σ.declNext re.2 x) body
    (.sliceBuffer (σ.declSym re.2 x) (σ.sym src) re.1 r.1, r.2)
  | .sliceDim x src d e body =>
    let re := dsE σ n e
    let r := dsS (σ.decl re.2 x) (σ.declNext re.2 x) body
    (.sliceDim (σ.declSym re.2 x) (σ.sym src) d re.1 r.1, r.2)
  | .transpose x src ds body =>
    let r := dsS (σ.decl n x) (σ.declNext n x) body
    (.transpose (σ.declSym n x) (σ.sym src) ds r.1, r.2)
  | .async none task body => (.async none task body, n)
  | .async (some x) task body =>
    let rt := dsS (σ.decl n x) (σ.declNext n x) task
    let rb := dsS (σ.decl n x) rt.2 body
    (.async (some (σ.declSym n x)) rt.1 rb.1, rb.2)
  | .check c =>
    let r := dsE σ n c
    (.check r.1, r.2)
/-- node_mutator.cc:91-104 -/
def dsSs (σ : Ren) (n : Nat) : Stmts → Stmts × Nat
  | .nil => (.nil, n)
  | .cons s ss =>
    let r := dsS σ n s
    let rs := dsSs σ r.2 ss
    (.cons r.1 rs.1, rs.2)
end

/-- optimizations.cc:1676-1680 the constructor of `deshadower` -/
def extRen (ext : List Nat) : Ren := fun x => if x ∈ ext then some x else none

/-- optimizations.cc:1841-1844 `deshadow`. `n` is the number of symbols of the context. -/
def deshadow (s : Stmt) (ext : List Nat) (n : Nat) : Stmt := (dsS (extRen ext) n s).1

/-! ## Specification -/

/-- The symbols that are declared, with one more. -/
def withSym (S : Nat → Prop) (x : Nat) : Nat → Prop := fun y => y = x ∨ S y

mutual
/-- No let of the expression declares a symbol that is already declared (`S`, or by a let around it). -/
def Expr.NoShadow (S : Nat → Prop) : Expr → Prop
  | .undef => True
  | .var .. => True
  | .const _ => True
  | .lets bs b => bs.NoShadow S ∧ b.NoShadow (fun y => y ∈ bs.syms ∨ S y)
  | .bin _ a b => a.NoShadow S ∧ b.NoShadow S
  | .not a => a.NoShadow S
  | .select c t f => c.NoShadow S ∧ t.NoShadow S ∧ f.NoShadow S
  | .call _ as => as.NoShadow S
/-- See `Expr.NoShadow`. -/
def Exprs.NoShadow (S : Nat → Prop) : Exprs → Prop
  | .nil => True
  | .cons e es => e.NoShadow S ∧ es.NoShadow S
/-- See `Expr.NoShadow`. -/
def Binds.NoShadow (S : Nat → Prop) : Binds → Prop
  | .nil => True
  | .cons x e bs => e.NoShadow S ∧ ¬ S x ∧ bs.NoShadow (withSym S x)
end

/-- See `Expr.NoShadow`. -/
def Interval.NoShadow (S : Nat → Prop) (i : Interval) : Prop := i.min.NoShadow S ∧ i.max.NoShadow S
/-- See `Expr.NoShadow`. -/
def DimE.NoShadow (S : Nat → Prop) (d : DimE) : Prop := d.bounds.NoShadow S ∧ d.stride.NoShadow S ∧ d.fold.NoShadow S

mutual
/-- No declaration of the statement declares a symbol that is already declared (`S`, or by a declaration around it), except `allocate`. -/
def Stmt.NoShadow (S : Nat → Prop) : Stmt → Prop
  | .undef => True
  | .call _ _ _ xs => ∀ e ∈ xs, e.NoShadow S
  | .copy _ _ xs _ ys _ => (∀ y ∈ ys, ¬ S y) ∧ ys.Nodup ∧ ∀ e ∈ xs, e.NoShadow (fun y => y ∈ ys ∨ S y)
  | .lets bs body _ => bs.NoShadow S ∧ body.NoShadow (fun y => y ∈ bs.syms ∨ S y)
  | .block ss => ss.NoShadow S
  | .loop x wk b st body => ¬ S x ∧ wk.NoShadow S ∧ b.NoShadow S ∧ st.NoShadow S ∧ body.NoShadow (withSym S x)
  | .allocate x _ e ds body => e.NoShadow S ∧ (∀ d ∈ ds, d.NoShadow S) ∧ body.NoShadow (withSym S x)
  | .makeBuffer x p e ds body => ¬ S x ∧ p.NoShadow S ∧ e.NoShadow S ∧ (∀ d ∈ ds, d.NoShadow S) ∧ body.NoShadow (withSym S x)
  | .constantBuffer x _ body => ¬ S x ∧ body.NoShadow (withSym S x)
  | .cloneBuffer x _ body => ¬ S x ∧ body.NoShadow (withSym S x)
  | .cropBuffer x _ bs body => ¬ S x ∧ (∀ i ∈ bs, i.NoShadow S) ∧ body.NoShadow (withSym S x)
  | .cropDim x _ _ b body => ¬ S x ∧ b.NoShadow S ∧ body.NoShadow (withSym S x)
  | .sliceBuffer x _ es body => ¬ S x ∧ (∀ e ∈ es, e.NoShadow S) ∧ body.NoShadow (withSym S x)
  | .sliceDim x _ _ e body => ¬ S x ∧ e.NoShadow S ∧ body.NoShadow (withSym S x)
  | .transpose x _ _ body => ¬ S x ∧ body.NoShadow (withSym S x)
  | .async none task body => task.NoShadow S ∧ body.NoShadow S
  | .async (some x) task body => ¬ S x ∧ task.NoShadow (withSym S x) ∧ body.NoShadow (withSym S x)
  | .check c => c.NoShadow S
/-- See `Stmt.NoShadow`. -/
def Stmts.NoShadow (S : Nat → Prop) : Stmts → Prop
  | .nil => True
  | .cons s ss => s.NoShadow S ∧ ss.NoShadow S
end

/-- No index of a `buffer_at` is the min of the same dimension of the buffer. -/
def plainIndices (z : Nat) : Nat → Exprs → Prop
  | _, .nil => True
  | d, .cons e es => e ≠ .var z .min d ∧ plainIndices z (d + 1) es

mutual
/-- Where `deshadow` is specified: the symbols of the expression are less than `N`; no let is `let x = x`; no index of a `buffer_at` is the min of
the same buffer. -/
def Expr.DsOk (N : Nat) : Expr → Prop
  | .undef => True
  | .var x _ _ => x < N
  | .const _ => True
  | .lets bs b => bs.DsOk N ∧ b.DsOk N
  | .bin _ a b => a.DsOk N ∧ b.DsOk N
  | .not a => a.DsOk N
  | .select c t f => c.DsOk N ∧ t.DsOk N ∧ f.DsOk N
  | .call fn as => as.DsOk N ∧ ∀ z d es, fn = .bufferAt → as = .cons (.var z .none d) es → plainIndices z 0 es
/-- See `Expr.DsOk`. -/
def Exprs.DsOk (N : Nat) : Exprs → Prop
  | .nil => True
  | .cons e es => e.DsOk N ∧ es.DsOk N
/-- See `Expr.DsOk`. -/
def Binds.DsOk (N : Nat) : Binds → Prop
  | .nil => True
  | .cons x e bs => x < N ∧ (∀ d, e ≠ .var x .none d) ∧ e.DsOk N ∧ bs.DsOk N
end

/-- See `Expr.DsOk`. -/
def Interval.DsOk (N : Nat) (i : Interval) : Prop := i.min.DsOk N ∧ i.max.DsOk N
/-- See `Expr.DsOk`. -/
def DimE.DsOk (N : Nat) (d : DimE) : Prop := d.bounds.DsOk N ∧ d.stride.DsOk N ∧ d.fold.DsOk N

mutual
/-- Where `deshadow` is specified: see `Expr.DsOk`; all statements of blocks are defined, and no block is empty; there are no closures; every
`async` has a symbol. -/
def Stmt.DsOk (N : Nat) : Stmt → Prop
  | .undef => True
  | .call _ i o xs => (∀ x ∈ i, x < N) ∧ (∀ x ∈ o, x < N) ∧ ∀ e ∈ xs, e.DsOk N
  | .copy _ src xs dst ys pad => src < N ∧ dst < N ∧ (∀ y ∈ ys, y < N) ∧ (∀ p ∈ pad, p < N) ∧ ∀ e ∈ xs, e.DsOk N
  | .lets bs body c => c = false ∧ bs.DsOk N ∧ body.DsOk N
  | .block .nil => False
  | .block (.cons s ss) => s ≠ .undef ∧ s.DsOk N ∧ ss.DsOk N
  | .loop x wk b st body => x < N ∧ wk.DsOk N ∧ b.DsOk N ∧ st.DsOk N ∧ body.DsOk N
  | .allocate x _ e ds body => x < N ∧ e.DsOk N ∧ (∀ d ∈ ds, d.DsOk N) ∧ body.DsOk N
  | .makeBuffer x p e ds body => x < N ∧ p.DsOk N ∧ e.DsOk N ∧ (∀ d ∈ ds, d.DsOk N) ∧ body.DsOk N
  | .constantBuffer x _ body => x < N ∧ body.DsOk N
  | .cloneBuffer x src body => x < N ∧ src < N ∧ body.DsOk N
  | .cropBuffer x src bs body => x < N ∧ src < N ∧ (∀ i ∈ bs, i.DsOk N) ∧ body.DsOk N
  | .cropDim x src _ b body => x < N ∧ src < N ∧ b.DsOk N ∧ body.DsOk N
  | .sliceBuffer x src es body => x < N ∧ src < N ∧ (∀ e ∈ es, e.DsOk N) ∧ body.DsOk N
  | .sliceDim x src _ e body => x < N ∧ src < N ∧ e.DsOk N ∧ body.DsOk N
  | .transpose x src _ body => x < N ∧ src < N ∧ body.DsOk N
  | .async none _ _ => False
  | .async (some x) task body => x < N ∧ task.DsOk N ∧ body.DsOk N
  | .check c => c.DsOk N
/-- See `Stmt.DsOk`. -/
def Stmts.DsOk (N : Nat) : Stmts → Prop
  | .nil => True
  | .cons s ss => s ≠ .undef ∧ s.DsOk N ∧ ss.DsOk N
end

end Slinky
