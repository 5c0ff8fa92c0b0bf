import Verif.Model.Serve
/-
What serving a request may come down to: a bare status line, or a run of a chain in a context that is as good
as new.
-/
namespace Water.Spec
open Water
variable {ω : Type}

/-- Serving ended normally having sent a status line and nothing else; no handler ran and the world is as it
was. -/
def Bare (sv : Served ω) (rw : Writer) (w : ω) (code : Int) : Prop :=
  sv.out = .ret ∧ sv.rw.header = rw.header ∧ sv.rw.log = rw.log ++ [.status true code rw.header] ∧ sv.trace = [] ∧
    sv.forms = [] ∧ sv.world = w

/-- A context at the beginning of a chain: nothing written, nothing stored, no form parsed. -/
structure Blank (s : St ω) : Prop where
  index : s.ctx.index = 0
  written : s.ctx.written = false
  status : s.ctx.status = 0
  environ : ∀ k, s.ctx.environ k = none
  parsed : s.ctx.parsedParams = false
  trace : s.trace = []
  forms : s.forms = []

/-- Serving was the run of the handlers `hs` in a blank context, for a route with full path `full`. -/
def Ran (sv : Served ω) (o : Oracle) (req : Req) (rw : Writer) (body : Option Str) (w : ω) (hs : List (Prog ω))
    (full : Str) : Prop :=
  ∃ s : St ω, Blank s ∧ s.ctx.handlers = hs ∧ s.ctx.fullPath.getD [] = full ∧ s.rw = rw ∧ s.body = body ∧ s.world = w ∧
    sv.out = (runAll o req s).1 ∧ sv.rw = (runAll o req s).2.rw ∧ sv.world = (runAll o req s).2.world ∧
    sv.forms = (runAll o req s).2.forms ∧ sv.trace = (runAll o req s).2.trace

/-- The two ways of serving cannot be told apart: same end, same response, same effects, same events. -/
def Same (a b : Served ω) : Prop :=
  a.out = b.out ∧ a.rw = b.rw ∧ a.world = b.world ∧ a.forms = b.forms ∧ a.trace = b.trace ∧ a.took = b.took ∧
    a.puts.length = b.puts.length

/-! ### The pool of contexts, shared by concurrent requests -/

/-- Context objects are numbered as they are made. `free` lists those in the pool, `busy` those in use, with the
number of the request; `store` is their content. -/
structure Pool (ω : Type) where
  made : Nat
  free : List Nat
  busy : List (Nat × Nat)
  store : Nat → Ctx ω

/-- Nothing has happened yet. -/
def Pool.start : Pool ω := { made := 0, free := [], busy := [], store := fun _ => Ctx.new }

/-- One step of the server. `sync.Pool` may give back any of its contexts, or make a new one, and may drop any.
The end of a request puts its context back as many times as `serve` does; meanwhile the content of a context in use
changes at will. -/
inductive Step (rx : Regex) (o : Oracle) (e : Engine (Prog ω)) : Pool ω → Pool ω → Prop where
  /-- `Get` returns a pooled context -/
  | getOld {p : Pool ω} {a b : List Nat} {c k : Nat} : p.free = a ++ c :: b →
      Step rx o e p { p with free := a ++ b, busy := (k, c) :: p.busy }
  /-- `Get` returns a new context -/
  | getNew {p : Pool ω} {k : Nat} :
      Step rx o e p { p with made := p.made + 1, busy := (k, p.made) :: p.busy }
  /-- a request ends -/
  | finish {p : Pool ω} {a b : List (Nat × Nat)} {c k : Nat} {c0 : Ctx ω} {req : Req} {rw : Writer} {body : Option Str}
      {w : ω} {st : Nat → Ctx ω} : p.busy = a ++ (k, c) :: b →
      Step rx o e p { p with
        busy := a ++ b
        free := p.free ++ List.replicate (serve rx o e c0 req rw body w).puts.length c
        store := st }
  /-- the garbage collector empties part of the pool -/
  | drop {p : Pool ω} {a b : List Nat} {c : Nat} : p.free = a ++ c :: b → Step rx o e p { p with free := a ++ b }

/-- The states the server can get into. -/
inductive Reach (rx : Regex) (o : Oracle) (e : Engine (Prog ω)) : Pool ω → Prop where
  | start : Reach rx o e Pool.start
  | step {p q : Pool ω} : Reach rx o e p → Step rx o e p q → Reach rx o e q

end Water.Spec
