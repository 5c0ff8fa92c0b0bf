import Verif.Model.Open
/-
Words for the statements about open handlers.
-/
namespace Water.Spec
variable {ρ ω : Type}

/-- Every call the code can make satisfies `A`, whatever the calls return. -/
def OCallsIn (A : OCall ρ ω → Prop) : OProg ρ ω → Prop
  | .ret => True
  | .panic _ => True
  | .next k => OCallsIn A k
  | .call c k => A c ∧ ∀ r, OCallsIn A (k r)
  | .scope b f => OCallsIn A b ∧ ∀ r, OCallsIn A (f r)

/-- at the beginning of a chain -/
def OAtStart (s : OSt ρ ω) : Prop := s.ctx.index = 0 ∧ s.ctx.written = false ∧ s.trace = []

/-- no assignment of nil to `ctx.ResponseWriter` -/
def NoNilWriter : OCall ρ ω → Prop
  | .wrap f => ∀ v w, v ≠ none → (f v w).1 ≠ none
  | _ => True

/-- a response writer none of whose methods panics -/
def SafeWriters (x : Outside ρ ω) : Prop := ∀ a op w, ∃ r, (x.device a op w).1 = .ok r

/-- nil, or related -/
def OptRel {α : Type} (R : α → α → Prop) : Option α → Option α → Prop
  | none, none => True
  | some a, some b => R a b
  | _, _ => False

/-- `R` relates writers, `W` worlds: related writers do the same to related worlds as far as the result shows, and parsing does. -/
structure Transparent (x : Outside ρ ω) (R : Nat → Nat → Prop) (W : ω → ω → Prop) : Prop where
  device : ∀ a b op v w, R a b → W v w → (x.device a op v).1 = (x.device b op w).1 ∧ W (x.device a op v).2 (x.device b op w).2
  parse : ∀ m r v w, W v w → (x.parse m r v).1 = (x.parse m r w).1 ∧ (x.parse m r v).2.1 = (x.parse m r w).2.1 ∧
    W (x.parse m r v).2.2 (x.parse m r w).2.2

/-- code that does not see which of two related writers it has got, or in which of two related worlds it runs -/
def Blind (R : Nat → Nat → Prop) (W : ω → ω → Prop) : OCall ρ ω → Prop
  | .wrap f => ∀ a b v w, OptRel R a b → W v w → OptRel R (f a v).1 (f b w).1 ∧ W (f a v).2 (f b w).2
  | .request f => ∀ r v w, W v w → (f r v).1 = (f r w).1 ∧ (f r v).2.1 = (f r w).2.1 ∧ W (f r v).2.2 (f r w).2.2
  | .world f => ∀ v w, W v w → (f v).1 = (f w).1 ∧ W (f v).2 (f w).2
  | _ => True

end Water.Spec
