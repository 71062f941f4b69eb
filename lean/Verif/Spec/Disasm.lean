import Verif.Model.Disasm
import Verif.Props.Inline
/-!
# What the listing of a method should show (C65)

One line for every instruction, in order, with its offset, a word for what the interpreter does there and its operands.  What the interpreter does at an
offset is `decode`, which the model of the interpreter executes.
-/
set_option autoImplicit false
namespace PySOM.Disasm.Spec
open PySOM BC

/-- The name of a jump that goes on with the next instruction and drops the top of the stack if the condition does not hold, and otherwise jumps and leaves the top on the stack, or
`nil` in place of a Boolean.  `two` says whether the distance has two bytes. -/
def topWord (two : Bool) : JCond → String
  | .onNil => if two then "JUMP2_ON_NIL_TOP_TOP" else "JUMP_ON_NIL_TOP_TOP"
  | .onNotNil => if two then "JUMP2_ON_NOT_NIL_TOP_TOP" else "JUMP_ON_NOT_NIL_TOP_TOP"
  | .onTrue => if two then "JUMP2_ON_TRUE_TOP_NIL" else "JUMP_ON_TRUE_TOP_NIL"
  | .onFalse => if two then "JUMP2_ON_FALSE_TOP_NIL" else "JUMP_ON_FALSE_TOP_NIL"

/-- The name of a jump that always drops the top of the stack. -/
def popWord (two : Bool) : JCond → String
  | .onNil => if two then "JUMP2_ON_NIL_POP" else "JUMP_ON_NIL_POP"
  | .onNotNil => if two then "JUMP2_ON_NOT_NIL_POP" else "JUMP_ON_NOT_NIL_POP"
  | .onTrue => if two then "JUMP2_ON_TRUE_POP" else "JUMP_ON_TRUE_POP"
  | .onFalse => if two then "JUMP2_ON_FALSE_POP" else "JUMP_ON_FALSE_POP"

/-- The names of the instructions.  A jump with a distance of more than a byte is a `JUMP2`. -/
inductive Word (lits : List (Lit Meth)) : Dec Meth → String → Prop where
  | dup (n : Nat) : Word lits (.ins .dup n) "DUP"
  | pop (n : Nat) : Word lits (.ins .pop n) "POP"
  | pushLocal (i l n : Nat) : Word lits (.ins (.pushVar false i l) n) "PUSH_LOCAL"
  | pushArgument (i l n : Nat) : Word lits (.ins (.pushVar true i l) n) "PUSH_ARGUMENT"
  | popLocal (i l n : Nat) : Word lits (.ins (.popVar false i l) n) "POP_LOCAL"
  | popArgument (i l n : Nat) : Word lits (.ins (.popVar true i l) n) "POP_ARGUMENT"
  | pushField (i l : Nat) : Word lits (.ins (.pushFld i l) 3) "PUSH_FIELD"
  | pushField0 : Word lits (.ins (.pushFld 0 0) 1) "PUSH_FIELD_0"
  | pushField1 : Word lits (.ins (.pushFld 1 0) 1) "PUSH_FIELD_1"
  | popField (i l : Nat) : Word lits (.ins (.popFld i l) 3) "POP_FIELD"
  | popField0 : Word lits (.ins (.popFld 0 0) 1) "POP_FIELD_0"
  | popField1 : Word lits (.ins (.popFld 1 0) 1) "POP_FIELD_1"
  | incField (i l n : Nat) : Word lits (.ins (.incFld i l) n) "INC_FIELD"
  | incFieldPush (i l n : Nat) : Word lits (.ins (.incFldPush i l) n) "INC_FIELD_PUSH"
  | pushBlock (m : Meth) (n : Nat) : Word lits (.ins (.pushBlock true m) n) "PUSH_BLOCK"
  | pushBlockNoCtx (m : Meth) (n : Nat) : Word lits (.ins (.pushBlock false m) n) "PUSH_BLOCK_NO_CTX"
  | push0 : Word lits (.ins (.pushConst (.int 0)) 1) "PUSH_0"
  | push1 : Word lits (.ins (.pushConst (.int 1)) 1) "PUSH_1"
  | pushNil : Word lits (.ins (.pushConst .nil) 1) "PUSH_NIL"
  | pushConstant (v : Val) : Word lits (.ins (.pushConst v) 2) "PUSH_CONSTANT"
  | pushConstant0 (v : Val) (h : lits[0]? = some (.val v)) : Word lits (.ins (.pushConst v) 1) "PUSH_CONSTANT_0"
  | pushConstant1 (v : Val) (h : lits[1]? = some (.val v)) : Word lits (.ins (.pushConst v) 1) "PUSH_CONSTANT_1"
  | pushConstant2 (v : Val) (h : lits[2]? = some (.val v)) : Word lits (.ins (.pushConst v) 1) "PUSH_CONSTANT_2"
  | pushGlobal (g : Sel) (n : Nat) : Word lits (.ins (.pushGlobal g) n) "PUSH_GLOBAL"
  | send1 (s : Sel) (n : Nat) : Word lits (.ins (.send s 1) n) "SEND_1"
  | send2 (s : Sel) (n : Nat) : Word lits (.ins (.send s 2) n) "SEND_2"
  | send3 (s : Sel) (n : Nat) : Word lits (.ins (.send s 3) n) "SEND_3"
  | sendN (s : Sel) (n : Nat) : Word lits (.ins (.send s (Sym.numberOfSignatureArguments s)) n) "SEND_N"
  | superSend (s : Sel) (k n : Nat) : Word lits (.ins (.superSend s k) n) "SUPER_SEND"
  | retLocal (n : Nat) : Word lits (.ins .retLocal n) "RETURN_LOCAL"
  | retNonLocal (l n : Nat) : Word lits (.ins (.retNonLocal l) n) "RETURN_NON_LOCAL"
  | retSelf (n : Nat) : Word lits (.ins .retSelf n) "RETURN_SELF"
  | retField0 (n : Nat) : Word lits (.ins (.retFld 0) n) "RETURN_FIELD_0"
  | retField1 (n : Nat) : Word lits (.ins (.retFld 1) n) "RETURN_FIELD_1"
  | retField2 (n : Nat) : Word lits (.ins (.retFld 2) n) "RETURN_FIELD_2"
  | inc (n : Nat) : Word lits (.ins .inc n) "INC"
  | dec (n : Nat) : Word lits (.ins .dec n) "DEC"
  | jump (o : Nat) (h : o ≤ 255) : Word lits (.jump o) "JUMP"
  | jump2 (o : Nat) : Word lits (.jump o) "JUMP2"
  | jumpTop (c : JCond) (o : Nat) (h : o ≤ 255) : Word lits (.jumpTop c o) (topWord false c)
  | jumpTop2 (c : JCond) (o : Nat) : Word lits (.jumpTop c o) (topWord true c)
  | jumpPop (c : JCond) (o : Nat) (h : o ≤ 255) : Word lits (.jumpPop c o) (popWord false c)
  | jumpPop2 (c : JCond) (o : Nat) : Word lits (.jumpPop c o) (popWord true c)
  | jumpBack (o : Nat) (h : o ≤ 255) : Word lits (.jumpBack o) "JUMP_BACKWARD"
  | jumpBack2 (o : Nat) : Word lits (.jumpBack o) "JUMP2_BACKWARD"

/-- The offset of a line, with blanks before it so that it takes at least four characters. -/
def label (p : Nat) : Text := ' ' :: (List.replicate (3 - (dec p).length) ' ' ++ dec p) ++ [':']

mutual
/-- The operands of an instruction at offset `p`: indices, levels, the objects they denote, the target of a jump.  With `exact` the operand of an instruction that creates a block that needs no
context is the block, otherwise it may be missing. -/
inductive Operands (N : Names) (exact : Bool) : List (Lit Meth) → Text → Nat → Dec Meth → Text → Prop where
  | none (lits : List (Lit Meth)) (indent : Text) (p : Nat) (i : Ins Meth) : Operands N exact lits indent p (.ins i 1) "\n".toList
  | pushVar (lits : List (Lit Meth)) (indent : Text) (p i l : Nat) :
      Operands N exact lits indent p (.ins (.pushVar false i l) 3) ("local: ".toList ++ dec i ++ ", context: ".toList ++ dec l ++ "\n".toList)
  | popVar (lits : List (Lit Meth)) (indent : Text) (p i l : Nat) :
      Operands N exact lits indent p (.ins (.popVar false i l) 3) ("local: ".toList ++ dec i ++ ", context: ".toList ++ dec l ++ "\n".toList)
  | pushArg (lits : List (Lit Meth)) (indent : Text) (p i l : Nat) :
      Operands N exact lits indent p (.ins (.pushVar true i l) 3) ("argument: ".toList ++ dec i ++ ", context ".toList ++ dec l ++ "\n".toList)
  | popArg (lits : List (Lit Meth)) (indent : Text) (p i l : Nat) :
      Operands N exact lits indent p (.ins (.popVar true i l) 3) ("argument: ".toList ++ dec i ++ ", context ".toList ++ dec l ++ "\n".toList)
  | field (lits : List (Lit Meth)) (indent : Text) (p i l : Nat) (fs : List Text) (f : Text) (k : Ins Meth)
      (hk : k = .pushFld i l ∨ k = .popFld i l ∨ k = .incFld i l ∨ k = .incFldPush i l) (hf : N.fields = some fs) (h : fs[i]? = some f) :
      Operands N exact lits indent p (.ins k 3) ("(index: ".toList ++ dec i ++ ", context ".toList ++ dec l ++ ") field: ".toList ++ f ++ "\n".toList)
  | block (lits : List (Lit Meth)) (indent : Text) (p : Nat) (c : Bool) (m : Meth) (i : Nat) (text : Text) (hm : lits[i]? = some (.meth m))
      (h : Listing N exact m (indent ++ "\t".toList) text) :
      Operands N exact lits indent p (.ins (.pushBlock c m) 2) ("block: (index: ".toList ++ dec i ++ ") ".toList ++ text)
  | lost (lits : List (Lit Meth)) (indent : Text) (p : Nat) (m : Meth) (h : exact = false) :
      Operands N exact lits indent p (.ins (.pushBlock false m) 2) "<incorrect bytecode>\n".toList
  | constant (lits : List (Lit Meth)) (indent : Text) (p : Nat) (v : Val) (i : Nat) (h : lits[i]? = some (.val v)) :
      Operands N exact lits indent p (.ins (.pushConst v) 2)
        ("(index: ".toList ++ dec i ++ ") value: (".toList ++ N.str (.val v) ++ " class: ".toList ++ N.cls (.val v) ++ ") \n".toList)
  | global (lits : List (Lit Meth)) (indent : Text) (p : Nat) (g : Sel) (i : Nat) (h : lits[i]? = some (.val (.sym g))) :
      Operands N exact lits indent p (.ins (.pushGlobal g) 2) ("(index: ".toList ++ dec i ++ ") value: ".toList ++ N.str (.val (.sym g)) ++ "\n".toList)
  | send (lits : List (Lit Meth)) (indent : Text) (p : Nat) (s : Sel) (i n : Nat) (h : lits[i]? = some (.val (.sym s))) :
      Operands N exact lits indent p (.ins (.send s n) 2) ("(index: ".toList ++ dec i ++ ") signature: ".toList ++ N.str (.val (.sym s)) ++ "\n".toList)
  | superSend (lits : List (Lit Meth)) (indent : Text) (p : Nat) (s : Sel) (i n : Nat) (h : lits[i]? = some (.val (.sym s))) :
      Operands N exact lits indent p (.ins (.superSend s n) 2) ("(index: ".toList ++ dec i ++ ") signature: ".toList ++ N.str (.val (.sym s)) ++ "\n".toList)
  | retNonLocal (lits : List (Lit Meth)) (indent : Text) (p l : Nat) : Operands N exact lits indent p (.ins (.retNonLocal l) 2) ("context: ".toList ++ dec l ++ "\n".toList)
  | forward (lits : List (Lit Meth)) (indent : Text) (p o : Nat) (c : JCond) (d : Dec Meth) (hd : d = .jump o ∨ d = .jumpTop c o ∨ d = .jumpPop c o) :
      Operands N exact lits indent p d ("(jump offset: ".toList ++ dec o ++ " -> jump target: ".toList ++ dec (p + o) ++ ")\n".toList)
  | backward (lits : List (Lit Meth)) (indent : Text) (p o : Nat) :
      Operands N exact lits indent p (.jumpBack o) ("(jump offset: ".toList ++ dec o ++ " -> jump target: ".toList ++ decInt ((p : Int) - o) ++ ")\n".toList)
/-- The lines of the code from offset `p` to the end. -/
inductive Lines (N : Names) (exact : Bool) : List (Lit Meth) → List Nat → Text → Nat → Text → Prop where
  | done (lits : List (Lit Meth)) (bytes : List Nat) (indent : Text) : Lines N exact lits bytes indent bytes.length []
  | line (lits : List (Lit Meth)) (bytes : List Nat) (indent : Text) (p : Nat) (d : Dec Meth) (word : String) (text more : Text)
      (hd : decode lits (bytes.drop p) = some d) (hw : Word lits d word) (ho : Operands N exact lits indent p d text)
      (hr : Lines N exact lits bytes indent (p + d.len) more) :
      Lines N exact lits bytes indent p (indent ++ label p ++ word.toList ++ "  ".toList ++ text ++ more)
/-- The listing of a method: how many local variables, places on the stack (`stack` is the limit that the interpreter enforces) and bytes it has, and its lines. -/
inductive Listing (N : Names) (exact : Bool) : Meth → Text → Text → Prop where
  | mk (id : Nat) (lits : List (Lit Meth)) (bytes : List Nat) (loops : List (Nat × Nat)) (args locals : List Nat) (stack : Nat) (code : SC Meth) (indent text : Text)
      (h : Lines N exact lits bytes indent 0 text) :
      Listing N exact (.bc id lits bytes loops args locals stack code) indent
        ("(\n".toList ++ indent ++ "<".toList ++ dec locals.length ++ " locals, ".toList ++ dec stack ++ " stack, ".toList ++ dec bytes.length ++ " bc_count>\n".toList ++
          text ++ indent ++ ")\n".toList)
end

/-- No field instruction refers to a variable that the class does not have. -/
def FieldsOK (fs : List Text) (lits : List (Lit Meth)) (bytes : List Nat) : Prop :=
  ∀ p i l k, BC.Spec.Boundary bytes p → decode lits (bytes.drop p) = some (.ins k 3) →
    k = .pushFld i l ∨ k = .popFld i l ∨ k = .incFld i l ∨ k = .incFldPush i l → i < fs.length

/-- The methods of the blocks that code creates with a context, and of those that these create with a context, and so on. -/
inductive Shown : List (Lit Meth) → List Nat → Meth → Prop where
  | here (lits : List (Lit Meth)) (bytes : List Nat) (m : Meth) (h : BC.Spec.Creates lits bytes true m) : Shown lits bytes m
  | inner (lits : List (Lit Meth)) (bytes : List Nat) (m : Meth) (id : Nat) (lits' : List (Lit Meth)) (bytes' : List Nat) (loops : List (Nat × Nat)) (args locals : List Nat)
      (stack : Nat) (code : SC Meth) (h : BC.Spec.Creates lits bytes true (.bc id lits' bytes' loops args locals stack code)) (hm : Shown lits' bytes' m) : Shown lits bytes m

end PySOM.Disasm.Spec
