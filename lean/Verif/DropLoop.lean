import Verif.CropBoundsThm
import Verif.ConcatThm
import Verif.ImplementCopyMain

/-!
# C55: a loop around a call that the simplifier removes

simplify.cc:1346-1386 `drop_loop` and 1388-1520 `visit(const loop*)`. A serial loop around a nest of `crop_dim`s around one call is replaced by one
call, if the bounds of the crops of successive iterations are contiguous. The bounds of the new crops are the bounds that the simplifier knows for
the bounds of the crops over the loop.
-/

namespace Slinky.DL

/-- A `crop_dim` without its body. -/
structure NCrop where
  sym : Nat
  src : Nat
  dim : Nat
  iv : Interval

/-- simplify.cc:1381-1384, the `crop_dim`s around a statement. -/
def nest : List NCrop → Stmt → Stmt
  | [], b => b
  | c :: cs, b => .cropDim c.sym c.src c.dim c.iv (nest cs b)

/-- simplify.cc:1351-1379, the `crop_dim`s around a statement, and the statement. -/
def peel : Stmt → List NCrop × Stmt
  | .cropDim sym src dim iv body => (⟨sym, src, dim, iv⟩ :: (peel body).1, (peel body).2)
  | s => ([], s)

section
variable (cfg : SimpCfg) (rec : Rec) (s : SState)

/-- simplify.cc:1358, what is known about the loop variable. -/
def inLoop (x : Nat) (bounds : Interval) : SState := s.setVar x ⟨bounds, {}, .undef⟩

/-- simplify.cc:1360, the bounds in the next iteration begin after the bounds in this iteration begin, and there is no gap. -/
def nextOK (x : Nat) (step : Expr) (iv : Interval) : Expr :=
  let next := substitute iv.min x (mkBin .add (.v x) step)
  mkBin .and (mkBin .lt iv.min next) (mkBin .le next (mkBin .add iv.max (.const 1)))

/-- simplify.cc:1361, the bounds in this iteration begin after the bounds in the previous iteration begin, and there is no gap. -/
def prevOK (x : Nat) (step : Expr) (iv : Interval) : Expr :=
  let r := mkBin .sub (.v x) step
  mkBin .and (mkBin .lt (substitute iv.min x r) iv.min) (mkBin .le iv.min (mkBin .add (substitute iv.max x r) (.const 1)))

/-- simplify.cc:1360-1361 -/
def contiguous (x : Nat) (bounds : Interval) (step : Expr) (c : NCrop) : Bool :=
  proveTrueS cfg rec (inLoop s x bounds) (mkBin .or (nextOK x step c.iv) (prevOK x step c.iv))

/-- simplify.cc:1363-1366, the bounds over the whole loop. -/
def wholeIv (x : Nat) (bounds iv : Interval) : Interval :=
  ⟨(rec (inLoop s x bounds) iv.min).2.bounds.min, (rec (inLoop s x bounds) (if iv.isPoint || matchE iv.min iv.max then iv.min else iv.max)).2.bounds.max,
    false⟩

/-- simplify.cc:1367 -/
def whole (x : Nat) (bounds : Interval) (c : NCrop) : NCrop := { c with iv := wholeIv rec s x bounds c.iv }

/-- simplify.cc:1346-1386 `drop_loop`; `none`: the body is returned. -/
def dropLoop (body : Stmt) (x : Nat) (bounds : Interval) (step : Expr) : Option Stmt :=
  if (peel body).1.isEmpty then none
  else if (peel body).1.all (contiguous cfg rec s x bounds step) then
    match (peel body).2 with
    | .call .. => some (nest ((peel body).1.map (whole rec s x bounds)) (peel body).2)
    | .copy .. => some (nest ((peel body).1.map (whole rec s x bounds)) (peel body).2)
    | _ => none
  else none

/-- simplify.cc:1500-1519, the last step of `visit(const loop*)`, where `body` is the simplified body. Simplification: the new loop is simplified
again (1510). -/
def lastStep (x : Nat) (workers : Expr) (bounds : Interval) (step : Expr) (body : Stmt) : Stmt :=
  if proveTrueS cfg rec s (mkBin .eq workers (.const 1)) then
    match dropLoop cfg rec s body x bounds step with
    | some r => .loop x workers ⟨mkBin .lt bounds.max bounds.min, .const 0, false⟩ (.const 1) r
    | none => .loop x workers bounds step body
  else .loop x workers bounds step body

end

/-! ### Specification -/

/-- The arguments of a call. -/
structure Args where
  ins : List Buf
  outs : List Buf
  scalars : List Int

/-- A call. -/
def callW (w : World) (t : Nat) (a : Args) (l : List Ev) : Option (Int × List Ev) :=
  some (w.call t a.ins a.outs a.scalars l, .call t (w.call t a.ins a.outs a.scalars l) :: l)

/-- Every element of each of the buffers is an element, at the same address, of the buffer `b`. -/
def Covers (bs : List Buf) (b : Buf) : Prop := ∀ c ∈ bs, ∀ i, c.InBounds i → b.InBounds i ∧ b.address i = c.address i

/-- Each element of the buffer is an element of one of the buffers. -/
def NoMore (bs : List Buf) (b : Buf) : Prop := ∀ i, b.InBounds i → ∃ c ∈ bs, c.InBounds i

/-- The buffers at a position in a list of arguments of calls. -/
def column (f : Args → List Buf) (k : Nat) (as : List Args) : List Buf := as.filterMap fun a => (f a)[k]?

/-- `P` holds for the buffers at each position of the arguments of the calls `as` and the buffer of the call `c`. -/
def Each (P : List Buf → Buf → Prop) (as : List Args) (c : Args) : Prop :=
  (∀ a ∈ as, a.scalars = c.scalars ∧ a.ins.length = c.ins.length ∧ a.outs.length = c.outs.length) ∧
  (∀ (k : Nat) (b : Buf), c.ins[k]? = some b → P (column Args.ins k as) b) ∧ ∀ (k : Nat) (b : Buf), c.outs[k]? = some b → P (column Args.outs k as) b

end Slinky.DL
