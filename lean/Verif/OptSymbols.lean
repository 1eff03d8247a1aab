import Verif.SubstStmtThm
import Verif.SimplifierApi

/-!
# Model of `optimize_symbols` (`slinky/builder/optimizations.cc`, `reuse_shadows`)

The pass makes crops, slices and transposes mutate their source in place where the body does not use the source, and makes closures of the bodies
that run in parallel.

Simplifications: a node that does not change is not copied by the code; here, it is rebuilt the same (except that a block in which nothing changes is
not flattened by the code). Symbols that are not in `can_mutate` are false in it. The recursion is on a bound of the depth of the statement
(`rsS_fuel`: more than the height of the statement makes no difference).
-/

namespace Slinky

/-- optimizations.cc:1760-1761 `can_mutate` -/
abbrev CanMutate := Nat → Bool

/-- The statements of a block, one after another. -/
def rsList (f : CanMutate → Stmt → Stmt × CanMutate) : CanMutate → Stmts → Stmts × CanMutate
  | cm, .nil => (.nil, cm)
  | cm, .cons s ss =>
    let r := f cm s
    let rs := rsList f r.2 ss
    (.cons r.1 rs.1, rs.2)

/-- optimizations.cc:1770-1775: is the mutator of `src` with this body made in place? -/
def rsReuse (cm : CanMutate) (src : Nat) (body : Stmt) : Bool := cm src && (dependsOnS body src).isEmpty

/-- optimizations.cc:1765-1790 `visit_buffer_mutator`: the symbol, and the body before it is mutated. The expression of a symbol is
`variable::make(sym)`, without a field. -/
def rsMutator (cm : CanMutate) (x src : Nat) (body : Stmt) : Nat × Stmt :=
  if rsReuse cm src body then (src, substituteS body x (.var src .none (-1))) else (x, body)

/-- optimizations.cc:1798-1811 `mutate_closure`: the closure, given the mutated body. `find_dependencies` returns each symbol once. -/
def mkClosure (s : Stmt) : Stmt := .lets (selfBinds (findDependenciesS s).dedup) s true

/-- optimizations.cc:1758-1841 `reuse_shadows`, with the visitors of `stmt_mutator` (node_mutator.cc:91-143). `serial` is
`prove_true(max_workers == loop::serial)`. The first argument bounds the depth of the recursion. -/
def rsS (serial : Expr → Bool) : Nat → CanMutate → Stmt → Stmt × CanMutate
  | 0, cm, s => (s, cm)
  | n + 1, cm, s =>
    match s with
    | .undef => (.undef, cm)
    | .call f i o xs => (.call f i o xs, cm)
    | .copy f src xs dst ys pad => (.copy f src xs dst ys pad, cm)
    | .check c => (.check c, cm)
    | .lets bs body c => let r := rsS serial n cm body; (.lets bs r.1 c, r.2)
    | .block ss => let r := rsList (rsS serial n) cm ss; (blockMake r.1.toList, r.2)
    | .loop x wk b st body =>
      if serial wk then
        let r := rsS serial n cm body
        (.loop x wk b st r.1, r.2)
      else (.loop x wk b st (mkClosure (rsS serial n (fun _ => false) body).1), cm)
    | .async x task body => (.async x (mkClosure (rsS serial n (fun _ => false) task).1) (mkClosure (rsS serial n (fun _ => false) body).1), cm)
    | .allocate x sto e ds body => let r := rsS serial n (Function.update cm x true) body; (.allocate x sto e ds r.1, r.2)
    | .makeBuffer x p e ds body => let r := rsS serial n (Function.update cm x true) body; (.makeBuffer x p e ds r.1, r.2)
    | .constantBuffer x b body => let r := rsS serial n (Function.update cm x false) body; (.constantBuffer x b r.1, r.2)
    | .cloneBuffer x src body => let r := rsS serial n cm body; (.cloneBuffer x src r.1, r.2)
    | .cropBuffer x src bs body =>
      let m := rsMutator cm x src body
      let r := rsS serial n (Function.update cm x true) m.2
      (.cropBuffer m.1 src bs r.1, r.2)
    | .cropDim x src d b body =>
      let m := rsMutator cm x src body
      let r := rsS serial n (Function.update cm x true) m.2
      (.cropDim m.1 src d b r.1, r.2)
    | .sliceBuffer x src es body =>
      let m := rsMutator cm x src body
      let r := rsS serial n (Function.update cm x true) m.2
      (.sliceBuffer m.1 src es r.1, r.2)
    | .sliceDim x src d e body =>
      let m := rsMutator cm x src body
      let r := rsS serial n (Function.update cm x true) m.2
      (.sliceDim m.1 src d e r.1, r.2)
    | .transpose x src ds body =>
      let m := rsMutator cm x src body
      let r := rsS serial n (Function.update cm x true) m.2
      (.transpose m.1 src ds r.1, r.2)

mutual
/-- How deep a statement is. -/
def Stmt.height : Stmt → Nat
  | .lets _ b _ => b.height + 1
  | .block ss => ss.height + 1
  | .loop _ _ _ _ b => b.height + 1
  | .allocate _ _ _ _ b => b.height + 1
  | .makeBuffer _ _ _ _ b => b.height + 1
  | .constantBuffer _ _ b => b.height + 1
  | .cloneBuffer _ _ b => b.height + 1
  | .cropBuffer _ _ _ b => b.height + 1
  | .cropDim _ _ _ _ b => b.height + 1
  | .sliceBuffer _ _ _ b => b.height + 1
  | .sliceDim _ _ _ _ b => b.height + 1
  | .transpose _ _ _ b => b.height + 1
  | .async _ t b => max t.height b.height + 1
  | _ => 1
/-- See `Stmt.height`. -/
def Stmts.height : Stmts → Nat
  | .nil => 0
  | .cons s ss => max s.height ss.height
end

/-- `prove_true(max_workers == loop::serial)`, stmt.h:239 `serial = 1` -/
def provesSerial (cfg : SimpCfg) (n : Nat) (wk : Expr) : Bool := proveTrue cfg n (mkBin .eq wk (.const 1)) (fun _ => none) (fun _ => none)

/-- optimizations.cc:1848-1851 `optimize_symbols` -/
def optimizeSymbols (serial : Expr → Bool) (s : Stmt) : Stmt := (rsS serial s.height (fun _ => false) s).1

/-! ## What is specified -/

mutual
/-- Where `optimize_symbols` is specified, for expressions. The symbols are in scope (`T`), no let declares a symbol in scope, the first argument of
`buffer_at` is a symbol, and no index of it is the min of the same buffer. -/
def Expr.OptOK (T : Nat → Prop) : Expr → Prop
  | .undef => True
  | .var y _ _ => T y
  | .const _ => True
  | .lets bs b => bs.OptOK T ∧ b.OptOK (fun y => y ∈ bs.syms ∨ T y)
  | .bin _ a b => a.OptOK T ∧ b.OptOK T
  | .not a => a.OptOK T
  | .select c u v => c.OptOK T ∧ u.OptOK T ∧ v.OptOK T
  | .call fn as => as.OptOK T ∧ (fn = .bufferAt → ∃ z d es, as = .cons (.var z .none d) es ∧ plainIndices z 0 es)
/-- See `Expr.OptOK`. -/
def Exprs.OptOK (T : Nat → Prop) : Exprs → Prop
  | .nil => True
  | .cons e es => e.OptOK T ∧ es.OptOK T
/-- See `Expr.OptOK`. -/
def Binds.OptOK (T : Nat → Prop) : Binds → Prop
  | .nil => True
  | .cons x e bs => e.OptOK T ∧ ¬ T x ∧ bs.OptOK (withSym T x)
end

/-- See `Expr.OptOK`. -/
def Interval.OptOK (T : Nat → Prop) (i : Interval) : Prop := i.min.OptOK T ∧ i.maxEnd.OptOK T
/-- See `Expr.OptOK`. -/
def DimE.OptOK (T : Nat → Prop) (d : DimE) : Prop := d.bounds.OptOK T ∧ d.stride.OptOK T ∧ d.fold.OptOK T

/-- An end of a crop of dimension `d` of `z` that does not depend on the other dimensions of `z`. -/
def EndIndep (z d : Nat) (e : Expr) : Prop := ¬ FreeIn z e ∨ e = .var z .min d ∨ e = .var z .max d

/-- The bounds of each dimension that a `crop_buffer` of `z` crops do not depend on the other dimensions of `z`. -/
def CropIndep (z : Nat) : Nat → List Interval → Prop
  | _, [] => True
  | d, i :: is => EndIndep z d i.min ∧ EndIndep z d i.maxEnd ∧ CropIndep z (d + 1) is

mutual
/-- Where `optimize_symbols` is specified. The symbols are in scope (`T`), and no declaration declares a symbol in scope; there are no closures and no
`copy_stmt`, and all statements of blocks are defined. `M` are the symbols that are declared by crops, slices and transposes: the number of workers
of a loop does not depend on them, and an `async` is not in their scope. The bounds of a `crop_buffer` do not depend on other dimensions of the
source. No `transpose` truncates. -/
def Stmt.OptOK (T M : Nat → Prop) : Stmt → Prop
  | .undef => True
  | .call _ i o xs => (∀ y ∈ i, T y) ∧ (∀ y ∈ o, T y) ∧ ∀ e ∈ xs, e.OptOK T
  | .copy .. => False
  | .lets bs body c => c = false ∧ bs.OptOK T ∧ body.OptOK (fun y => y ∈ bs.syms ∨ T y) M
  | .block .nil => False
  | .block (.cons s ss) => s ≠ .undef ∧ s.OptOK T M ∧ ss.OptOK T M
  | .loop x wk b st body => ¬ T x ∧ wk.BufOK ∧ (∀ y, FreeIn y wk → T y ∧ ¬ M y) ∧ b.OptOK T ∧ st.OptOK T ∧ body.OptOK (withSym T x) M
  | .allocate x _ e ds body => ¬ T x ∧ e.OptOK T ∧ (∀ d ∈ ds, d.OptOK T) ∧ body.OptOK (withSym T x) M
  | .makeBuffer x p e ds body => ¬ T x ∧ p.OptOK T ∧ e.OptOK T ∧ (∀ d ∈ ds, d.OptOK T) ∧ body.OptOK (withSym T x) M
  | .constantBuffer x _ body => ¬ T x ∧ body.OptOK (withSym T x) M
  | .cloneBuffer x src body => ¬ T x ∧ T src ∧ body.OptOK (withSym T x) M
  | .cropBuffer x src bs body => ¬ T x ∧ T src ∧ (∀ i ∈ bs, i.OptOK T) ∧ CropIndep src 0 bs ∧ body.OptOK (withSym T x) (withSym M x)
  | .cropDim x src _ b body => ¬ T x ∧ T src ∧ b.OptOK T ∧ body.OptOK (withSym T x) (withSym M x)
  | .sliceBuffer x src es body => ¬ T x ∧ T src ∧ (∀ e ∈ es, e.OptOK T) ∧ body.OptOK (withSym T x) (withSym M x)
  | .sliceDim x src _ e body => ¬ T x ∧ T src ∧ e.OptOK T ∧ body.OptOK (withSym T x) (withSym M x)
  | .transpose x src ds body => ¬ T x ∧ T src ∧ ds ≠ List.range ds.length ∧ body.OptOK (withSym T x) (withSym M x)
  | .async x task body => x = none ∧ (∀ y, ¬ M y) ∧ task.OptOK T M ∧ body.OptOK T M
  | .check c => c.OptOK T ∧ isFree c = false
/-- See `Stmt.OptOK`. -/
def Stmts.OptOK (T M : Nat → Prop) : Stmts → Prop
  | .nil => True
  | .cons s ss => s ≠ .undef ∧ s.OptOK T M ∧ ss.OptOK T M
end

/-- Every value that the number of workers can have is at most 1. -/
def Expr.AlwaysSerial (wk : Expr) : Prop := ∀ w l ρ n, evalI w l ρ wk = some n → n ≤ 1

mutual
/-- Every crop, slice or transpose in place is of a buffer in `D`: a buffer that is declared in the same part of the program that one task runs, and
is not a constant. The body of a loop that is not always serial, and the task and the body of an `async`, are run by other tasks. The symbols of a
closure are those of the task that makes it. -/
def Stmt.InPlaceOwned (D : Nat → Prop) : Stmt → Prop
  | .lets bs body c => body.InPlaceOwned (fun y => (c = false ∧ y ∈ bs.syms) ∨ D y)
  | .block ss => ss.InPlaceOwned D
  | .loop x wk _ _ body => (wk.AlwaysSerial → body.InPlaceOwned (withSym D x)) ∧ (¬ wk.AlwaysSerial → body.InPlaceOwned (fun _ => False))
  | .allocate x _ _ _ body => body.InPlaceOwned (withSym D x)
  | .makeBuffer x _ _ _ body => body.InPlaceOwned (withSym D x)
  | .constantBuffer x _ body => body.InPlaceOwned (fun y => y ≠ x ∧ D y)
  | .cloneBuffer x _ body => body.InPlaceOwned (withSym D x)
  | .cropBuffer x src _ body => (x = src → D x) ∧ body.InPlaceOwned (withSym D x)
  | .cropDim x src _ _ body => (x = src → D x) ∧ body.InPlaceOwned (withSym D x)
  | .sliceBuffer x src _ body => (x = src → D x) ∧ body.InPlaceOwned (withSym D x)
  | .sliceDim x src _ _ body => (x = src → D x) ∧ body.InPlaceOwned (withSym D x)
  | .transpose x src _ body => (x = src → D x) ∧ body.InPlaceOwned (withSym D x)
  | .async _ task body => task.InPlaceOwned (fun _ => False) ∧ body.InPlaceOwned (fun _ => False)
  | _ => True
/-- See `Stmt.InPlaceOwned`. -/
def Stmts.InPlaceOwned (D : Nat → Prop) : Stmts → Prop
  | .nil => True
  | .cons s ss => s.InPlaceOwned D ∧ ss.InPlaceOwned D
end

/-- The statement is a closure of exactly the symbols that are free in its body. -/
def Stmt.IsClosure (s : Stmt) : Prop := ∃ sy s1, s = .lets (selfBinds sy) s1 true ∧ sy.Nodup ∧ ∀ y, y ∈ sy ↔ s1.Free y

mutual
/-- Every body that can run in parallel is a closure of exactly the symbols that are free in it. -/
def Stmt.ParClosed : Stmt → Prop
  | .lets _ body _ => body.ParClosed
  | .block ss => ss.ParClosed
  | .loop _ wk _ _ body => (wk.AlwaysSerial ∨ body.IsClosure) ∧ body.ParClosed
  | .allocate _ _ _ _ body => body.ParClosed
  | .makeBuffer _ _ _ _ body => body.ParClosed
  | .constantBuffer _ _ body => body.ParClosed
  | .cloneBuffer _ _ body => body.ParClosed
  | .cropBuffer _ _ _ body => body.ParClosed
  | .cropDim _ _ _ _ body => body.ParClosed
  | .sliceBuffer _ _ _ body => body.ParClosed
  | .sliceDim _ _ _ _ body => body.ParClosed
  | .transpose _ _ _ body => body.ParClosed
  | .async _ task body => task.IsClosure ∧ body.IsClosure ∧ task.ParClosed ∧ body.ParClosed
  | _ => True
/-- See `Stmt.ParClosed`. -/
def Stmts.ParClosed : Stmts → Prop
  | .nil => True
  | .cons s ss => s.ParClosed ∧ ss.ParClosed
end

end Slinky
