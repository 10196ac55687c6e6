import Mathlib.Data.Real.Basic

/-!
Expressions of `double` and the values a compiled program may compute for them: each operation is followed by a rounding, but the compiler may contract a product with the addition or
subtraction it is an operand of, also across statements, and then the product is not rounded (the option `-ffp-contract=fast`, the default of the compilers used). A temporary that is used
several times is written out at each use; the program may contract it at one use and not at another. Overflow is not modelled; a division by zero has no finite value.
-/

namespace Verif.Model.FloatExpr

/-- An expression. No code: the syntax of the assignments in generated_linear/quadrilateral.hpp:126-143 and the other generated functions. -/
inductive Expr where
  | lit (x : ℝ)
  | add (a b : Expr)
  | sub (a b : Expr)
  | mul (a b : Expr)
  | div (a b : Expr)
  | neg (a : Expr)

export Expr (lit)

/-- No code: `+` of two expressions, for generated_linear/quadrilateral.hpp:126-143. -/
instance : Add Expr := ⟨.add⟩
/-- No code: `-` of two expressions, for generated_linear/quadrilateral.hpp:126-143. -/
instance : Sub Expr := ⟨.sub⟩
/-- No code: `*` of two expressions, for generated_linear/quadrilateral.hpp:126-143. -/
instance : Mul Expr := ⟨.mul⟩
/-- No code: `/` of two expressions, for generated_linear/pyramid.hpp:216-240. -/
instance : Div Expr := ⟨.div⟩
/-- No code: the sign of an expression, for generated_linear/quadrilateral.hpp:126-143. -/
instance : Neg Expr := ⟨.neg⟩

/-- The exact value. No code: exact arithmetic for generated_linear/quadrilateral.hpp:126-143. -/
noncomputable def Expr.eval : Expr → ℝ
  | .lit x => x
  | .add a b => a.eval + b.eval
  | .sub a b => a.eval - b.eval
  | .mul a b => a.eval * b.eval
  | .div a b => a.eval / b.eval
  | .neg a => -a.eval

/-- `Res rnd e raw v`: a program may compute `v` for `e`. If `raw` is set, `v` is a product (or its negative) that has not been rounded because it is contracted with the operation that uses it.
Both operands of an addition may be products that are not rounded, which includes what the compilers do. No code: floating point semantics of generated_linear/quadrilateral.hpp:126-143. -/
inductive Res (rnd : ℝ → ℝ) : Expr → Bool → ℝ → Prop
  | lit (x : ℝ) : Res rnd (.lit x) false x
  | add {a b : Expr} {ra rb : Bool} {x y : ℝ} : Res rnd a ra x → Res rnd b rb y → Res rnd (.add a b) false (rnd (x + y))
  | sub {a b : Expr} {ra rb : Bool} {x y : ℝ} : Res rnd a ra x → Res rnd b rb y → Res rnd (.sub a b) false (rnd (x - y))
  | mul {a b : Expr} {x y : ℝ} : Res rnd a false x → Res rnd b false y → Res rnd (.mul a b) true (x * y)
  | round {e : Expr} {x : ℝ} : Res rnd e true x → Res rnd e false (rnd x)
  | div {a b : Expr} {x y : ℝ} : Res rnd a false x → Res rnd b false y → y ≠ 0 → Res rnd (.div a b) false (rnd (x / y))
  | neg {a : Expr} {ra : Bool} {x : ℝ} : Res rnd a ra x → Res rnd (.neg a) ra (-x)

end Verif.Model.FloatExpr
