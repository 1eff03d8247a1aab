import Verif.ParTasks

/-!
# C56: `alias_in_place`, the pass

optimizations.cc:1007-1213. A call that says that it may be computed in place can use the memory of an input for an output. The pass replaces the
allocation of the output by a crop of the input, or the allocation of the input by a crop of the output.

The attributes of a call (stmt.h:133-150) are given by a function of its target.
-/

namespace Slinky.AIP

/-- stmt.h:133-150 `call_stmt::attributes`, the parts that the pass uses: the bits of `allow_in_place`, and whether the name is "memcpy". -/
structure Attrs where
  inPlace : Nat → Bool
  memcpy : Bool := false

/-- optimizations.cc:1010-1022 `buffer_info`. `level = none` is `std::numeric_limits<int>::max()`. -/
structure Info where
  root : Nat
  dims : List DimE := []
  level : Option Nat := none
  allow : Bool := true

/-- optimizations.cc:1024-1033, the maps that are not restored at the end of a scope (except for the symbol of an allocation). An undefined `var` and
no entry are not distinguished, because the code does not. -/
structure St where
  backward : Nat → Option Nat
  forward : Nat → Option Nat
  uses : Nat → Option Nat

/-- The map with another value for a key. -/
def upd {α : Type} (m : Nat → Option α) (x : Nat) (v : Option α) : Nat → Option α := fun y => if y = x then v else m y

/-- optimizations.cc:1048-1059 `fold_factors_strides_same` -/
def sameStrides (prove : Expr → Bool) (alloc target : List DimE) : Bool :=
  if alloc.length > target.length then !(alloc.any fun d => d.stride.defined || d.fold.defined)
  else (alloc.zip target).all fun p =>
    !(p.1.stride.defined && !prove (mkBin .eq p.1.stride p.2.stride)) && !(p.1.fold.defined && !prove (mkBin .eq p.1.fold p.2.fold))

/-- optimizations.cc:1099-1103 `add_use` -/
def addUse (u : Nat → Option Nat) (r : Nat) : Nat → Option Nat := upd u r (some ((u r).getD 0 + 1))

/-- optimizations.cc:1108-1112, the uses of the inputs of a call. -/
def addUses (bufs : Nat → Option Info) : List Nat → (Nat → Option Nat) → (Nat → Option Nat)
  | [], u => u
  | i :: is, u => addUses bufs is (match bufs i with | none => u | some a => addUse u a.root)

/-- Is the level of an allocation less than the level of the call? -/
def levelLt : Option Nat → Nat → Bool
  | none, _ => false
  | some a, b => a < b

/-- optimizations.cc:1135-1140, the number of uses of an input, including this one, is at most 1. -/
def lastUse : Option Nat → Bool
  | none => false
  | some k => decide (k ≤ 1)

/-- optimizations.cc:1126-1146, may the input `i` (its symbol is `x`) be used for the output `o`? -/
def inputOk (bufs : Nat → Option Info) (at_ : Attrs) (u : Nat → Option Nat) (level n o i x : Nat) : Bool :=
  decide (o * n + i ≤ 31) && at_.inPlace (o * n + i) &&
    match bufs x with
    | none => false
    | some a => a.allow && lastUse (u a.root) && !levelLt a.level level

/-- optimizations.cc:1126-1151, the first input that may be used for the output `o`: its symbol. -/
def pick (bufs : Nat → Option Info) (at_ : Attrs) (u : Nat → Option Nat) (level n o : Nat) : Nat → List Nat → Option Nat
  | _, [] => none
  | i, x :: xs => if inputOk bufs at_ u level n o i x then some x else pick bufs at_ u level n o (i + 1) xs

/-- optimizations.cc:1148-1149 -/
def link (bufs : Nat → Option Info) (b a : Nat) (st : St) : St :=
  match bufs a with
  | none => st
  | some ia => { st with backward := upd st.backward b (some ia.root), forward := upd st.forward ia.root (some b) }

/-- optimizations.cc:1114-1152, the outputs of a call. -/
def outputs (bufs : Nat → Option Info) (at_ : Attrs) (level : Nat) (ins : List Nat) : Nat → List Nat → St → St
  | _, [], st => st
  | o, y :: ys, st =>
    outputs bufs at_ level ins (o + 1) ys <|
      match bufs y with
      | none => st
      | some b =>
        if !b.allow || levelLt b.level level then st
        else match pick bufs at_ st.uses level ins.length o 0 ins with
          | none => st
          | some a => link bufs b.root a st

/-- optimizations.cc:1105-1153 `visit(const call_stmt*)` -/
def visitCall (attrs : Nat → Attrs) (bufs : Nat → Option Info) (level t : Nat) (ins outs : List Nat) (st : St) : St :=
  let st := { st with uses := addUses bufs ins st.uses }
  if (attrs t).memcpy then st else outputs bufs (attrs t) level ins 0 outs st

/-- runtime/expr_stmt.cc:754-760 `dims_bounds` -/
def dimsBounds (ds : List DimE) : List Interval := ds.map DimE.bounds

/-- optimizations.cc:1079-1080 and 1084-1085, may the memory of `t` be used? -/
def fits (prove : Expr → Bool) (bufs : Nat → Option Info) (dims : List DimE) : Option Nat → Bool
  | none => false
  | some y => match bufs y with
    | none => false
    | some i => sameStrides prove dims i.dims

/-- optimizations.cc:1061-1097 `visit(const allocate*)`, after the body has been mutated (`st` is the state after the body). -/
def rebuild (prove : Expr → Bool) (bufs : Nat → Option Info) (x : Nat) (storage : Storage) (elem : Expr) (dims : List DimE) (body : Stmt) (st : St) :
    Stmt × St :=
  if st.uses x = some 1 ∧ fits prove bufs dims (st.backward x) then
    let y := (st.backward x).getD 0
    (.cropBuffer x y (dimsBounds dims) body, { st with forward := upd st.forward y none })
  else if st.uses x = some 1 ∧ fits prove bufs dims (st.forward x) then
    let y := (st.forward x).getD 0
    (.cloneBuffer x y (.cropBuffer x x (dimsBounds dims) body), { st with backward := upd st.backward y none })
  else (.allocate x storage elem dims body, st)

/-- optimizations.cc:1165-1172 `visit_opaque_buffer_decl` -/
def opaque_ (i : Option Info) : Option Info := i.map fun a => { a with allow := false }

mutual
/-- optimizations.cc:1007-1206 `in_place_aliaser`. `bufs` (`buffers`) and `level` (`loop_level`) are restored at the end of every scope, and so they are
parameters. Simplification: a block in a block is not flattened (`block::make`). -/
def mutate (prove : Expr → Bool) (attrs : Nat → Attrs) : (Nat → Option Info) → Nat → Stmt → St → Stmt × St
  | bufs, level, .call t ins outs sc, st => (.call t ins outs sc, visitCall attrs bufs level t ins outs st)
  | bufs, _, .copy t src srcX dst dstX pad, st =>
    (.copy t src srcX dst dstX pad, match bufs src with | none => st | some a => { st with uses := addUse st.uses a.root })
  | bufs, level, .lets bs body cl, st => ((.lets bs (mutate prove attrs bufs level body st).1 cl), (mutate prove attrs bufs level body st).2)
  | bufs, level, .block ss, st => (.block (mutateRev prove attrs bufs level ss st).1, (mutateRev prove attrs bufs level ss st).2)
  | bufs, level, .loop x w b s body, st =>
    (.loop x w b s (mutate prove attrs bufs (level + 1) body st).1, (mutate prove attrs bufs (level + 1) body st).2)
  | bufs, level, .allocate x storage elem dims body, st =>
    let bufs1 := upd bufs x (some { root := x, dims := dims, level := some level })
    let r := mutate prove attrs bufs1 level body
      ⟨upd st.backward x none, upd st.forward x none, upd st.uses x (some 0)⟩
    let r2 := rebuild prove bufs1 x storage elem dims r.1 r.2
    (r2.1, ⟨upd r2.2.backward x (st.backward x), upd r2.2.forward x (st.forward x), upd r2.2.uses x (st.uses x)⟩)
  | bufs, level, .makeBuffer x base elem dims body, st =>
    let r := mutate prove attrs (upd bufs x (opaque_ ((PT.dataDep base).bind bufs))) level body st
    (.makeBuffer x base elem dims r.1, r.2)
  | bufs, level, .constantBuffer x b body, st => let r := mutate prove attrs bufs level body st; (.constantBuffer x b r.1, r.2)
  | bufs, level, .cloneBuffer x src body, st => let r := mutate prove attrs (upd bufs x (bufs src)) level body st; (.cloneBuffer x src r.1, r.2)
  | bufs, level, .cropBuffer x src bs body, st =>
    let r := mutate prove attrs (upd bufs x (bufs src)) level body st; (.cropBuffer x src bs r.1, r.2)
  | bufs, level, .cropDim x src d b body, st =>
    let r := mutate prove attrs (upd bufs x (bufs src)) level body st; (.cropDim x src d b r.1, r.2)
  | bufs, level, .sliceBuffer x src at_ body, st =>
    let r := mutate prove attrs (upd bufs x (opaque_ (bufs src))) level body st; (.sliceBuffer x src at_ r.1, r.2)
  | bufs, level, .sliceDim x src d at_ body, st =>
    let r := mutate prove attrs (upd bufs x (opaque_ (bufs src))) level body st; (.sliceDim x src d at_ r.1, r.2)
  | bufs, level, .transpose x src ds body, st =>
    let r := mutate prove attrs (upd bufs x (opaque_ (bufs src))) level body st; (.transpose x src ds r.1, r.2)
  | bufs, level, .async x task body, st =>
    let r1 := mutate prove attrs bufs level task st
    let r2 := mutate prove attrs bufs level body r1.2
    (.async x r1.1 r2.1, r2.2)
  | _, _, .check c, st => (.check c, st)
  | _, _, .undef, st => (.undef, st)
/-- optimizations.cc:1184-1200 `visit(const block*)`: the statements are mutated from the last to the first. -/
def mutateRev (prove : Expr → Bool) (attrs : Nat → Attrs) : (Nat → Option Info) → Nat → Stmts → St → Stmts × St
  | _, _, .nil, st => (.nil, st)
  | bufs, level, .cons s ss, st =>
    let r := mutateRev prove attrs bufs level ss st
    let r1 := mutate prove attrs bufs level s r.2
    (.cons r1.1 r.1, r1.2)
end

/-- optimizations.cc:1041-1046, the state at the beginning: the outputs have a use. -/
def initBufs (outs : List Nat) : Nat → Option Info := fun x => if x ∈ outs then some { root := x } else none

/-- See `initBufs`. -/
def initSt (outs : List Nat) : St := ⟨fun _ => none, fun _ => none, fun x => if x ∈ outs then some 1 else none⟩

/-- optimizations.cc:1210-1213 `alias_in_place` -/
def aliasInPlace (prove : Expr → Bool) (attrs : Nat → Attrs) (outs : List Nat) (s : Stmt) : Stmt :=
  (mutate prove attrs (initBufs outs) 0 s (initSt outs)).1

end Slinky.AIP
