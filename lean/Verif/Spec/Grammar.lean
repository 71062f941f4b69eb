import Verif.Model.Parser
/-!
# The grammar of SOM expressions

The grammar, as derivations over token lists, with the tree each phrase stands for.  It is the usual one: a unary message binds tighter than a
binary one, a binary one tighter than a keyword message; unary and binary messages associate to the left; `( … )` is a primary.

```
expression ::= (variable ':=')* evaluation
evaluation ::= binary [ (keyword binary)+ ]
binary     ::= unary | binary operator unary
unary      ::= primary | unary identifier
primary    ::= variable | literal | '(' expression ')' | '[' [(':' x)+ '|'] ['|' x* '|'] body ']'
body       ::= [expression] | expression '.' body | '^' expression ['.']
```

A message is a super send exactly if its receiver is the bare word `super`; the phrases carry a flag telling whether they are this word.
Elsewhere `super` stands for `self`.
-/
set_option autoImplicit false
namespace PySOM.Parse.Grammar
open PySOM.Lex PySOM.Parse

/-- An identifier; `primitive` may be used as one. -/
def IsId (t : Tok) : Prop := t.sym = .identifier ∨ t.sym = .primitive
/-- The operators. -/
def IsOp (t : Tok) : Prop :=
  t.sym ∈ [.operatorSequence, .plus, .minus, .star, .div, .mod, .less, .more, .equal, .not, .and, .or, .comma, .at, .per]
/-- What may follow `#` in a symbol. -/
def IsSelector (t : Tok) : Prop := IsId t ∨ IsOp t ∨ t.sym = .keyword ∨ t.sym = .keywordSequence

mutual
/-- Literals. -/
inductive GLit : List Tok → Lit → Prop
  | int {t : Tok} : t.sym = .integer → GLit [t] (.int false t.text)
  | dbl {t : Tok} : t.sym = .double → GLit [t] (.dbl false t.text)
  | negInt {m t : Tok} : m.sym = .minus → t.sym = .integer → GLit [m, t] (.int true t.text)
  | negDbl {m t : Tok} : m.sym = .minus → t.sym = .double → GLit [m, t] (.dbl true t.text)
  | str {t : Tok} : t.sym = .stString → GLit [t] (.str t.text)
  | symStr {p t : Tok} : p.sym = .pound → t.sym = .stString → GLit [p, t] (.sym t.text)
  | sym {p t : Tok} : p.sym = .pound → IsSelector t → GLit [p, t] (.sym t.text)
  | arr {p o c : Tok} {ts : List Tok} {es : List Lit} :
      p.sym = .pound → o.sym = .newTerm → c.sym = .endTerm → GLits ts es → GLit (p :: o :: (ts ++ [c])) (.arr es)
/-- Sequences of literals. -/
inductive GLits : List Tok → List Lit → Prop
  | nil : GLits [] []
  | cons {ts us : List Tok} {e : Lit} {es : List Lit} : GLit ts e → GLits us es → GLits (ts ++ us) (e :: es)
end

/-- Sequences of identifiers. -/
inductive Ids : List Tok → List Name → Prop
  | nil : Ids [] []
  | cons {t : Tok} {ts : List Tok} {xs : List Name} : IsId t → Ids ts xs → Ids (t :: ts) (t.text :: xs)

/-- `:x :y …`. -/
inductive Params : List Tok → List Name → Prop
  | nil : Params [] []
  | cons {c t : Tok} {ts : List Tok} {xs : List Name} :
      c.sym = .colon → IsId t → Params ts xs → Params (c :: t :: ts) (t.text :: xs)

/-- The parameters of a block: nothing, or `:x :y … |`. -/
inductive BlockHead : List Tok → List Name → Prop
  | none : BlockHead [] []
  | some {o : Tok} {ts : List Tok} {xs : List Name} : o.sym = .or → Params ts xs → xs ≠ [] → BlockHead (ts ++ [o]) xs

/-- Local variables: nothing, or `| x y … |`. -/
inductive LocalsDecl : List Tok → List Name → Prop
  | none : LocalsDecl [] []
  | some {o c : Tok} {ts : List Tok} {xs : List Name} :
      o.sym = .or → c.sym = .or → Ids ts xs → LocalsDecl (o :: (ts ++ [c])) xs

/-- `x := y := …`. -/
inductive Targets : List Tok → List Name → Prop
  | one {t a : Tok} : IsId t → a.sym = .assign → Targets [t, a] [t.text]
  | cons {t a : Tok} {ts : List Tok} {xs : List Name} :
      IsId t → a.sym = .assign → Targets ts xs → Targets (t :: a :: ts) (t.text :: xs)

/-- An optional period. -/
inductive Dot : List Tok → Prop
  | none : Dot []
  | some {p : Tok} : p.sym = .period → Dot [p]

/-- A single variable or literal: no messages, parentheses or block. -/
inductive Simple : List Tok → Prop
  | var {t : Tok} : IsId t → t.text ≠ superName → Simple [t]
  | lit {ts : List Tok} {l : Lit} : GLit ts l → Simple ts

/-- What a parser does not take, or takes in addition; all `false` in the grammar itself.
* `one`: after `+` or `-`, the token `1` is not followed by a unary message;
* `bare`: the operand of a binary message is not the bare word `super`;
* `simple`: in a keyword message to `super`, the first argument is a single variable or literal;
* `pseudo`: no assignments to `self` or `super`;
* `lax`: statements need not be separated by periods. -/
structure Dialect where
  one : Bool := false
  bare : Bool := false
  simple : Bool := false
  pseudo : Bool := false
  lax : Bool := false

mutual
/-- Primaries. -/
inductive Prim (D : Dialect) : List Tok → Tree → Bool → Prop
  | var {t : Tok} : IsId t → t.text ≠ superName → Prim D [t] (.var t.text) false
  | sup {t : Tok} : IsId t → t.text = superName → Prim D [t] (.var selfName) true
  | lit {ts : List Tok} {l : Lit} : GLit ts l → Prim D ts (.lit l) false
  | term {o c : Tok} {ts : List Tok} {t : Tree} :
      o.sym = .newTerm → c.sym = .endTerm → Expr D ts t → Prim D (o :: (ts ++ [c])) t false
  | block {o c : Tok} {ps ls bs : List Tok} {xs ys : List Name} {ts : List Tree} {ex : Bool} :
      o.sym = .newBlock → c.sym = .endBlock → BlockHead ps xs → LocalsDecl ls ys → Body D bs ts ex →
      Prim D (o :: (ps ++ (ls ++ (bs ++ [c])))) (.block xs ys ts ex) false
/-- Unary messages. -/
inductive Un (D : Dialect) : List Tok → Tree → Bool → Prop
  | prim {ts : List Tok} {t : Tree} {s : Bool} : Prim D ts t s → Un D ts t s
  | send {ts : List Tok} {t : Tree} {s : Bool} {m : Tok} :
      Un D ts t s → IsId m → Un D (ts ++ [m]) (.send s m.text t []) false
/-- Binary messages. -/
inductive Bin (D : Dialect) : List Tok → Tree → Bool → Prop
  | un {ts : List Tok} {t : Tree} {s : Bool} : Un D ts t s → Bin D ts t s
  | send {ts us : List Tok} {t a : Tree} {s r : Bool} {op : Tok} :
      Bin D ts t s → IsOp op → Un D us a r →
      (D.bare = true → r = false) →
      (D.one = true → op.text = ['+'] ∨ op.text = ['-'] → s = false →
        (∃ u, us = [u]) ∨ ∀ u ∈ us.head?, ¬ (u.sym = .integer ∧ u.text = ['1'])) →
      Bin D (ts ++ op :: us) (.send s op.text t [a]) false
/-- `at: … put: …`: the selector, the arguments, and the tokens of the first one. -/
inductive Args (D : Dialect) : List Tok → Name → List Tree → List Tok → Prop
  | one {k : Tok} {ts : List Tok} {a : Tree} {s : Bool} : k.sym = .keyword → Bin D ts a s → Args D (k :: ts) k.text [a] ts
  | cons {k : Tok} {ts us fs : List Tok} {a : Tree} {s : Bool} {ks : Name} {as : List Tree} :
      k.sym = .keyword → Bin D ts a s → Args D us ks as fs → Args D (k :: (ts ++ us)) (k.text ++ ks) (a :: as) ts
/-- Messages. -/
inductive Eval (D : Dialect) : List Tok → Tree → Prop
  | bin {ts : List Tok} {t : Tree} {s : Bool} : Bin D ts t s → Eval D ts t
  | send {ts us fs : List Tok} {t : Tree} {s : Bool} {ks : Name} {as : List Tree} :
      Bin D ts t s → Args D us ks as fs → (D.simple = true → s = true → Simple fs) →
      Eval D (ts ++ us) (.send s ks t as)
/-- Expressions. -/
inductive Expr (D : Dialect) : List Tok → Tree → Prop
  | eval {ts : List Tok} {t : Tree} : Eval D ts t → Expr D ts t
  | assign {xs ts : List Tok} {ns : List Name} {t : Tree} :
      Targets xs ns → (D.pseudo = true → ∀ x ∈ ns, x ≠ selfName ∧ x ≠ superName) → Eval D ts t →
      Expr D (xs ++ ts) (.assign ns t)
/-- Statements. -/
inductive Body (D : Dialect) : List Tok → List Tree → Bool → Prop
  | empty : Body D [] [] false
  | exit {c : Tok} {ts ds : List Tok} {t : Tree} : c.sym = .exit → Expr D ts t → Dot ds → Body D (c :: (ts ++ ds)) [t] true
  | last {ts : List Tok} {t : Tree} : Expr D ts t → Body D ts [t] false
  | stmt {p : Tok} {ts us : List Tok} {t : Tree} {bs : List Tree} {ex : Bool} :
      Expr D ts t → p.sym = .period → Body D us bs ex → Body D (ts ++ p :: us) (t :: bs) ex
  | juxt {ts us : List Tok} {t : Tree} {bs : List Tree} {ex : Bool} :
      D.lax = true → Expr D ts t → Body D us bs ex → Body D (ts ++ us) (t :: bs) ex
end

/-- `a: x b: y` in the head of a method. -/
inductive KeyPattern : List Tok → Name → List Name → Prop
  | one {k t : Tok} : k.sym = .keyword → IsId t → KeyPattern [k, t] k.text [t.text]
  | cons {k t : Tok} {ts : List Tok} {ks : Name} {xs : List Name} :
      k.sym = .keyword → IsId t → KeyPattern ts ks xs → KeyPattern (k :: t :: ts) (k.text ++ ks) (t.text :: xs)

/-- The head of a method: its selector and parameters. -/
inductive Pattern : List Tok → Name → List Name → Prop
  | unary {t : Tok} : IsId t → Pattern [t] t.text []
  | binary {op t : Tok} : IsOp op → IsId t → Pattern [op, t] op.text [t.text]
  | keyword {ts : List Tok} {ks : Name} {xs : List Name} : KeyPattern ts ks xs → Pattern ts ks xs

/-- Methods. -/
inductive GMethod (D : Dialect) : List Tok → Method → Prop
  | prim {ps : List Tok} {x : Name} {xs : List Name} {e p : Tok} :
      Pattern ps x xs → e.sym = .equal → p.sym = .primitive → GMethod D (ps ++ [e, p]) ⟨x, xs, none⟩
  | body {ps ls bs : List Tok} {x : Name} {xs ys : List Name} {e o c : Tok} {ts : List Tree} {ex : Bool} :
      Pattern ps x xs → e.sym = .equal → o.sym = .newTerm → c.sym = .endTerm → LocalsDecl ls ys → Body D bs ts ex →
      GMethod D (ps ++ e :: o :: (ls ++ (bs ++ [c]))) ⟨x, xs, some (ys, ts, ex)⟩

/-- The grammar. -/
def som : Dialect := {}
/-- The part of the grammar the bytecode parser gets right. -/
def bcPart : Dialect := { one := true, bare := true }
/-- The part of the grammar the AST parser gets right. -/
def astPart : Dialect := { bare := true, simple := true, pseudo := true }
/-- What the AST parser accepts: periods may be missing. -/
def laxSom : Dialect := { lax := true }
def part : Engine → Dialect
  | .bc => bcPart
  | .ast => astPart
def taken : Engine → Dialect
  | .bc => som
  | .ast => laxSom

/-- Tokens without the constructs the parser gets wrong: no `super`; for the bytecode parser, no `+ 1 x` or `- 1 x`, where `x` is an
identifier; for the AST parser, no assignments to `self`. -/
structure Plain (e : Engine) (ts : List Tok) : Prop where
  noSuper : ∀ t ∈ ts, t.text ≠ superName
  noOne : e = .bc → ∀ o u x, [o, u, x] <:+: ts → ¬ ((o.text = ['+'] ∨ o.text = ['-']) ∧ (u.sym = .integer ∧ u.text = ['1']) ∧ IsId x)
  noSelf : e = .ast → ∀ x a, [x, a] <:+: ts → ¬ (x.text = selfName ∧ a.sym = .assign)

/-- What may follow an expression. -/
def Stop (rest : List Tok) : Prop := ∀ t ∈ rest.head?, ¬ IsId t ∧ ¬ IsOp t ∧ t.sym ≠ .keyword ∧ t.sym ≠ .assign

end PySOM.Parse.Grammar
