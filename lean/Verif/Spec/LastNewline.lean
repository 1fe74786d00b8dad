import Verif.Model.Ast
/-! Programs that end with an expression. -/
namespace Ws.Spec
open Ws

mutual
/-- The statement ends with an expression. A `for` loop with a declaration becomes a block that ends with the loop; a
block that was written as one cannot be followed by a newline (C31), so it makes no difference below. -/
def endsExpr : Stmt → Bool
  | .expression _ => true
  | .if _ s none => endsExpr s
  | .if _ _ (some s) => endsExpr s
  | .while _ s => endsExpr s
  | .whileIncrement _ s _ => endsExpr s
  | .block ss => endsExprs ss
  | _ => false
/-- The last of the statements does. -/
def endsExprs : List Stmt → Bool
  | [] => false
  | [s] => endsExpr s
  | _ :: ss => endsExprs ss
end

end Ws.Spec
