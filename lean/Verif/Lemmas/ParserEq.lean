import Verif.Model.Parser
/-! # Equality of trees can be decided (for the examples) -/
set_option autoImplicit false
namespace PySOM.Parse

mutual
def Lit.decEq : (a b : Lit) → Decidable (a = b)
  | .int n x, .int m y => if h : n = m ∧ x = y then isTrue (by rw [h.1, h.2]) else isFalse (by intro e; cases e; exact h ⟨rfl, rfl⟩)
  | .dbl n x, .dbl m y => if h : n = m ∧ x = y then isTrue (by rw [h.1, h.2]) else isFalse (by intro e; cases e; exact h ⟨rfl, rfl⟩)
  | .str x, .str y => if h : x = y then isTrue (by rw [h]) else isFalse (by intro e; cases e; exact h rfl)
  | .sym x, .sym y => if h : x = y then isTrue (by rw [h]) else isFalse (by intro e; cases e; exact h rfl)
  | .arr x, .arr y => match Lit.decEqs x y with
    | isTrue h => isTrue (by rw [h])
    | isFalse h => isFalse (by intro e; cases e; exact h rfl)
  | .int _ _, .dbl _ _ | .int _ _, .str _ | .int _ _, .sym _ | .int _ _, .arr _
  | .dbl _ _, .int _ _ | .dbl _ _, .str _ | .dbl _ _, .sym _ | .dbl _ _, .arr _
  | .str _, .int _ _ | .str _, .dbl _ _ | .str _, .sym _ | .str _, .arr _
  | .sym _, .int _ _ | .sym _, .dbl _ _ | .sym _, .str _ | .sym _, .arr _
  | .arr _, .int _ _ | .arr _, .dbl _ _ | .arr _, .str _ | .arr _, .sym _ => isFalse (by intro e; cases e)
def Lit.decEqs : (a b : List Lit) → Decidable (a = b)
  | [], [] => isTrue rfl
  | a :: as, b :: bs => match Lit.decEq a b, Lit.decEqs as bs with
    | isTrue h, isTrue h' => isTrue (by rw [h, h'])
    | isFalse h, _ => isFalse (by intro e; cases e; exact h rfl)
    | isTrue _, isFalse h => isFalse (by intro e; cases e; exact h rfl)
  | [], _ :: _ | _ :: _, [] => isFalse (by intro e; cases e)
end
instance : DecidableEq Lit := Lit.decEq

mutual
def Tree.decEq : (a b : Tree) → Decidable (a = b)
  | .var x, .var y => if h : x = y then isTrue (by rw [h]) else isFalse (by intro e; cases e; exact h rfl)
  | .lit x, .lit y => if h : x = y then isTrue (by rw [h]) else isFalse (by intro e; cases e; exact h rfl)
  | .send s x r as, .send s' x' r' as' =>
    if h : s = s' ∧ x = x' then match Tree.decEq r r', Tree.decEqs as as' with
      | isTrue h1, isTrue h2 => isTrue (by rw [h.1, h.2, h1, h2])
      | isFalse h, _ => isFalse (by intro e; cases e; exact h rfl)
      | isTrue _, isFalse h => isFalse (by intro e; cases e; exact h rfl)
    else isFalse (by intro e; cases e; exact h ⟨rfl, rfl⟩)
  | .assign xs v, .assign ys w =>
    if h : xs = ys then match Tree.decEq v w with
      | isTrue h1 => isTrue (by rw [h, h1])
      | isFalse h1 => isFalse (by intro e; cases e; exact h1 rfl)
    else isFalse (by intro e; cases e; exact h rfl)
  | .block a b c d, .block a' b' c' d' =>
    if h : a = a' ∧ b = b' ∧ d = d' then match Tree.decEqs c c' with
      | isTrue h1 => isTrue (by rw [h.1, h.2.1, h.2.2, h1])
      | isFalse h1 => isFalse (by intro e; cases e; exact h1 rfl)
    else isFalse (by intro e; cases e; exact h ⟨rfl, rfl, rfl⟩)
  | .var _, .lit _ | .var _, .send .. | .var _, .assign .. | .var _, .block ..
  | .lit _, .var _ | .lit _, .send .. | .lit _, .assign .. | .lit _, .block ..
  | .send .., .var _ | .send .., .lit _ | .send .., .assign .. | .send .., .block ..
  | .assign .., .var _ | .assign .., .lit _ | .assign .., .send .. | .assign .., .block ..
  | .block .., .var _ | .block .., .lit _ | .block .., .send .. | .block .., .assign .. => isFalse (by intro e; cases e)
def Tree.decEqs : (a b : List Tree) → Decidable (a = b)
  | [], [] => isTrue rfl
  | a :: as, b :: bs => match Tree.decEq a b, Tree.decEqs as bs with
    | isTrue h, isTrue h' => isTrue (by rw [h, h'])
    | isFalse h, _ => isFalse (by intro e; cases e; exact h rfl)
    | isTrue _, isFalse h => isFalse (by intro e; cases e; exact h rfl)
  | [], _ :: _ | _ :: _, [] => isFalse (by intro e; cases e)
end
instance : DecidableEq Tree := Tree.decEq
deriving instance DecidableEq for Method
instance {α β : Type} [DecidableEq α] [DecidableEq β] : DecidableEq (Except α β)
  | .ok a, .ok b => if h : a = b then isTrue (by rw [h]) else isFalse (by intro e; cases e; exact h rfl)
  | .error a, .error b => if h : a = b then isTrue (by rw [h]) else isFalse (by intro e; cases e; exact h rfl)
  | .ok _, .error _ | .error _, .ok _ => isFalse (by intro e; cases e)

end PySOM.Parse
