import Verif.Model.Basic
/-
`context.go` and the running part of `term.go`: contexts and their combination, and
running functions with and without a terminal's context.
-/
set_option autoImplicit false

namespace Anansi
namespace Ctx

/-- What a call ends with: a nil error, an error, or a panic. -/
inductive Res
  | ok
  | err (e : Nat)
  | panic (e : Nat)
deriving DecidableEq, Repr

/-- What happens, in order: calls of a context's methods, and anything a program does by
itself. -/
inductive Ev
  | enter (i : Nat)
  | exit (i : Nat)
  | close (i : Nat)
  | user (n : Nat) (within : Bool)
deriving DecidableEq, Repr

/-- The surroundings: what each context method returns, given everything that happened
before, and which contexts have a `Close` method. -/
structure Env where
  reply : List Ev → Ev → Res
  closes : Nat → Bool

/-! ### `context.go` -/

/-- `context.go:55-62` `contexts.Enter`. -/
def enterAll (v : Env) (tr : List Ev) : List Nat → List Ev × Res
  | [] => (tr, .ok)
  | i :: l =>
    match v.reply tr (.enter i) with
    | .ok => enterAll v (tr ++ [.enter i]) l
    | r => (tr ++ [.enter i], r)

/-- `context.go:64-71`: the loop of `contexts.Exit`, over the reversed list. -/
def exitLoop (v : Env) (tr : List Ev) (rerr : Res) : List Nat → List Ev × Res
  | [] => (tr, rerr)
  | i :: l =>
    match v.reply tr (.exit i) with
    | .panic e => (tr ++ [.exit i], .panic e)
    | r => exitLoop v (tr ++ [.exit i]) (if rerr = .ok then r else rerr) l

/-- `context.go:64-71` `contexts.Exit`. -/
def exitAll (v : Env) (tr : List Ev) (l : List Nat) : List Ev × Res := exitLoop v tr .ok l.reverse

/-- `context.go:73-82`: the loop of `contexts.Close`, over the reversed list. -/
def closeLoop (v : Env) (tr : List Ev) (rerr : Res) : List Nat → List Ev × Res
  | [] => (tr, rerr)
  | i :: l =>
    if v.closes i then
      match v.reply tr (.close i) with
      | .panic e => (tr ++ [.close i], .panic e)
      | r => closeLoop v (tr ++ [.close i]) (if rerr = .ok then r else rerr) l
    else closeLoop v tr rerr l

/-- `context.go:73-82` `contexts.Close`. -/
def closeAll (v : Env) (tr : List Ev) (l : List Nat) : List Ev × Res := closeLoop v tr .ok l.reverse

/-- A `Context` value: nil, one implemented elsewhere, or a `contexts` slice, which is a
backing array, a length and a capacity. -/
inductive Cx
  | nil
  | leaf (i : Nat)
  | many (arr len cap : Nat)
deriving DecidableEq, Repr

/-- The backing arrays, each as long as its capacity. -/
abbrev Heap := List (List Nat)

/-- Go's `append` to a slice of `len` elements with the given capacity.  How much room a
new array has is up to the runtime: `grow`, given the old capacity and the number of
elements needed. -/
def append (grow : Nat → Nat → Nat) (h : Heap) (arr len cap : Nat) (xs : List Nat) : Heap × Cx :=
  if len + xs.length ≤ cap then
    (h.set arr (((h.getD arr []).take len ++ xs) ++ (h.getD arr []).drop (len + xs.length)),
      .many arr (len + xs.length) cap)
  else
    let need := len + xs.length
    let c := max need (grow cap need)
    (h ++ [((h.getD arr []).take len ++ xs) ++ List.replicate (c - need) 0], .many h.length need c)

/-- The elements of a slice. -/
def slice (h : Heap) (arr len : Nat) : List Nat := (h.getD arr []).take len

/-- `context.go:29-48`: one round of the loop of `Contexts`. -/
def combine (grow : Nat → Nat → Nat) (h : Heap) (a b : Cx) : Heap × Cx :=
  match a, b with
  | a, .nil => (h, a)
  | .nil, b => (h, b)
  | .many arr len cap, .many arr' len' _ => append grow h arr len cap (slice h arr' len')
  | .many arr len cap, .leaf j => append grow h arr len cap [j]
  | .leaf i, .many arr' len' _ => append grow (h ++ [[i]]) h.length 1 1 (slice h arr' len')
  | .leaf i, .leaf j => (h ++ [[i, j]], .many h.length 2 2)

/-- `context.go:24-51` `Contexts`. -/
def contexts (grow : Nat → Nat → Nat) (h : Heap) : List Cx → Heap × Cx
  | [] => (h, .nil)
  | a :: cs => cs.foldl (fun ha b => combine grow ha.1 ha.2 b) (h, a)

/-! ### `term.go` -/

/-- The fields of a `Term` that matter here, `term.go:71-80`; `ctx` holds the elements of
the context, which is always a `contexts` when not nil. -/
structure Term where
  under : Bool := false
  active : Bool := false
  ctx : Option (List Nat) := none
deriving DecidableEq, Repr

/-- Input, output, attributes and mode. -/
def base : List Nat := [0, 1, 2, 3]

/-- `term.go:139-148` `initContext`. -/
def Term.init (t : Term) : Term := { t with ctx := some (t.ctx.getD base) }

/-- The elements of the context. -/
def Term.list (t : Term) : List Nat := t.ctx.getD []

/-- A program using a terminal.  What a call returns, or panics with, is given to the
continuation, which may pass it on. -/
inductive Prog
  | ret (r : Res)
  | user (n : Nat) (within : Bool) (p : Prog)
  | runWith (body : Prog) (k : Res → Prog)
  | runWithout (body : Prog) (k : Res → Prog)
  | addContext (cs : List Nat) (k : Res → Prog)

/-- A deferred call's result after the results so far: a panic replaces everything, an
error is taken when there is none yet. -/
def Res.andThen (r d : Res) : Res :=
  match d with
  | .panic e => .panic e
  | .err e => if r = .ok then .err e else r
  | .ok => r

/-- Running a program: `RunWith` is `term.go:91-127`, `RunWithout` is `term.go:154-167`,
`AddContext` is `term.go:131-137`.  The panic value of `AddContext` is 0. -/
def run (v : Env) : Prog → List Ev × Term → (List Ev × Term) × Res
  | .ret r, s => (s, r)
  | .user n w p, s => run v p (s.1 ++ [.user n w], s.2)
  | .runWith body k, s =>
    if s.2.active then
      let b := run v body s
      run v (k b.2) b.1
    else
      let t := { s.2 with active := true, under := true }.init
      let en := enterAll v s.1 t.list
      let b := if en.2 = .ok then run v body (en.1, t) else ((en.1, t), en.2)
      let ex := exitAll v b.1.1 b.1.2.list
      let cl := closeAll v ex.1 t.list
      let t' := { b.1.2 with active := false, under := s.2.under && b.1.2.under }
      run v (k ((b.2.andThen ex.2).andThen cl.2)) (cl.1, t')
  | .runWithout body k, s =>
    if s.2.active then
      let ex := exitAll v s.1 s.2.list
      if ex.2 = .ok then
        let b := run v body (ex.1, { s.2 with active := false })
        if b.2 = .ok then
          let en := enterAll v b.1.1 b.1.2.list
          run v (k en.2) (en.1, { b.1.2 with active := decide (en.2 = .ok) || b.1.2.active })
        else run v (k b.2) b.1
      else run v (k ex.2) (ex.1, s.2)
    else
      let b := run v body s
      run v (k b.2) b.1
  | .addContext cs k, s =>
    if s.2.under then run v (k (.panic 0)) s
    else run v (k .ok) (s.1, { s.2 with ctx := some (s.2.ctx.getD base ++ cs) })

end Ctx
end Anansi
