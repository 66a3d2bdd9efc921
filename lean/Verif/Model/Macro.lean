import Verif.Py.Basic

/-! # Aperture macros: compiler (gerber/am_read.py) and stack machine (gerber/am_eval.py) -/

namespace Verif.Macro
open Verif.Py

/-- A value on the stack of `eval_macro`: a number or the text of a comment (am_eval.py:63-109). -/
inductive Val
  | num (v : ℚ)
  | txt (s : Str)
  deriving DecidableEq

/-- `OpCode` with its argument (am_eval.py:22-31).  `nop` is the pair `(None, None)` that
`token_to_opcode` gives for a left parenthesis that was never closed (am_read.py:48-49). -/
inductive Instr
  | push (v : Val) | load (n : ℕ) | store (n : ℕ)
  | add | sub | mul | div
  | prim (code : ℕ)
  | nop
  deriving DecidableEq

/-- `token_to_opcode` (am_read.py:39-49). -/
def tokenToOpcode (c : Char) : Instr :=
  if c = '+' then .add else if c = '-' then .sub
  else if c = 'x' ∨ c = 'X' then .mul else if c = '/' then .div else .nop

/-- `precedence` (am_read.py:52-58). -/
def precedence (c : Char) : ℕ :=
  if c = '+' ∨ c = '-' then 1 else if c = 'x' ∨ c = 'X' ∨ c = '/' then 2 else 0

/-- `is_op` (am_read.py:61-62), `Token.OPERATORS` (am_read.py:32). -/
def isOp (c : Char) : Bool := c = '+' || c = '-' || c = 'x' || c = 'X' || c = '/'

/-- Local variables of one round of the block loop of `read_macro` (am_read.py:123-157).
`code` are the instructions of the block in order, `ops` is `op_stack` with the top first. -/
structure RState where
  code : List Instr := []
  ops : List Char := []
  isEquation : Bool
  foundLeft : Bool := false
  foundCode : Bool := false
  left : ℕ := 0
  primCode : ℕ := 0
  minusAllowed : Bool := false
  minus : Bool := false
  deriving DecidableEq

/-- `Scanner.readint` (am_read.py:92-96): number and rest. -/
def readInt (s : Str) : PyR (ℕ × Str) :=
  match s.takeWhile isDig with
  | [] => .error .valueError
  | ds => .ok (natVal ds, s.dropWhile isDig)

/-- Characters of `Scanner.readfloat` (am_read.py:100). -/
def isNumCh (c : Char) : Bool := isDig c || c == '.'

/-- `Scanner.readfloat` (am_read.py:98-105): number and rest. -/
def readFloat (s : Str) : PyR (ℚ × Str) :=
  let n := s.takeWhile isNumCh
  if n = ['.'] then .ok (0, s.dropWhile isNumCh)
  else match pyFloat n with
    | .ok v => .ok (v, s.dropWhile isNumCh)
    | .error e => .error e

/-- `Scanner.readstr("*")` on a text without `*` (am_read.py:107-111): everything, stripped. -/
def readStr (s : Str) : Str := strip s

/-- `while not empty() and is_op(top()) and precedence(top()) >= precedence(c)` (am_read.py:178):
popped operators and remaining stack. -/
def popOps (p : ℕ) : List Char → List Instr × List Char
  | [] => ([], [])
  | t :: ops =>
    if isOp t = true ∧ p ≤ precedence t then
      let (l, r) := popOps p ops
      (tokenToOpcode t :: l, r)
    else ([], t :: ops)

/-- `while not empty() and top() != "("` (am_read.py:187). -/
def popParen : List Char → List Instr × List Char
  | [] => ([], [])
  | t :: ops =>
    if t ≠ '(' then
      let (l, r) := popParen ops
      (tokenToOpcode t :: l, r)
    else ([], t :: ops)

/-- One round of the `while not scanner.eof()` loop (am_read.py:159-230) on character `c`, with
`rest` the text after it: new state and text to go on with. -/
def readChar (st : RState) (c : Char) (rest : Str) : PyR (RState × Str) :=
  if c = ',' then
    .ok ({ st with foundCode := true, code := st.code ++ st.ops.map tokenToOpcode, ops := [],
                   minusAllowed := true }, rest)
  else if isOp c then
    if c = '-' ∧ st.minusAllowed then
      .ok ({ st with minus := true, minusAllowed := false }, rest)
    else
      let (l, ops) := popOps (precedence c) st.ops
      .ok ({ st with code := st.code ++ l, ops := c :: ops }, rest)
  else if c = '(' then .ok ({ st with ops := c :: st.ops }, rest)
  else if c = ')' then
    match popParen st.ops with
    | (_, []) => .error .valueError
    | (l, _ :: ops) => .ok ({ st with code := st.code ++ l, ops := ops }, rest)
  else if c = '$' then do
    let (n, rest) ← readInt rest
    if st.isEquation ∧ ¬ st.foundLeft then .ok ({ st with left := n }, rest)
    else .ok ({ st with code := st.code ++ [.load n] }, rest)
  else if c = '=' then .ok ({ st with foundLeft := true }, rest)
  else if c = '0' then
    if !st.isEquation && !st.foundCode then
      .ok ({ st with code := st.code ++ [.push (.txt (readStr rest))], foundCode := true }, [])
    else if rest.head? = some '.' then .ok (st, rest)
    else .ok ({ st with code := st.code ++ [.push (.num 0)] }, rest)
  else if isDig c || c == '.' then
    if !st.isEquation && !st.foundCode then do
      let (n, rest) ← readInt (c :: rest)
      .ok ({ st with primCode := n }, rest)
    else do
      let (n, rest) ← readFloat (c :: rest)
      if st.minus then
        .ok ({ st with minus := false, code := st.code ++ [.push (.num (n * -1))] }, rest)
      else .ok ({ st with code := st.code ++ [.push (.num n)] }, rest)
  else .ok (st, rest)

/-- The loop over the characters of a block.  Every round removes at least one character, so the
length of the block bounds the number of rounds (am_read.py:159-230). -/
def readLoop : ℕ → RState → Str → PyR RState
  | 0, st, _ => .ok st
  | _ + 1, st, [] => .ok st
  | n + 1, st, c :: rest => do
    let (st', rest') ← readChar st c rest
    readLoop n st' rest'

/-- What follows the loop (am_read.py:232-241): instructions of the block. -/
def finish (st : RState) : List Instr :=
  st.code ++ st.ops.map tokenToOpcode ++
    (if !st.isEquation && st.foundCode then [.prim st.primCode] else []) ++
    (if st.isEquation then [.store st.left] else [])

/-- One block of `read_macro` (am_read.py:123-241). -/
def readBlock (block : Str) : PyR (List Instr) := do
  let st ← readLoop block.length { isEquation := '=' ∈ block } block
  .ok (finish st)

/-- `macro.split("*")` (am_read.py:123). -/
def splitStar : Str → List Str
  | [] => [[]]
  | c :: s =>
    if c = '*' then [] :: splitStar s
    else match splitStar s with
      | [] => [[c]]
      | b :: l => (c :: b) :: l

/-- Instructions of a list of blocks, in order (am_read.py:121-123, 243). -/
def readBlocks : List Str → PyR (List Instr)
  | [] => .ok []
  | b :: l => do
    let a ← readBlock b
    let r ← readBlocks l
    .ok (a ++ r)

/-- `read_macro` (am_read.py:120-243). -/
def readMacro (macro_ : Str) : PyR (List Instr) := readBlocks (splitStar macro_)

/-! ## Evaluation -/

/-- The dictionary of macro variables (am_eval.py:54-61). -/
abbrev Env := ℕ → Option Val

/-- `parameters[n] = v` (am_eval.py:84-85). -/
def Env.set (e : Env) (n : ℕ) (v : Val) : Env := fun m => if m = n then some v else e m

/-- The parameter dictionary made from a tuple of modifiers (am_eval.py:56-61). -/
def envOf (mods : List ℚ) : Env := fun n =>
  if n = 0 then none else (mods[n - 1]?).map .num

/-- Arithmetic of two stack values: text is a `TypeError`.  (Python would also multiply a text by
the integer 0 or add two texts; a text is always followed by the end of its block, so this needs an
operator before the `0` of a comment block.) (am_eval.py:87-105) -/
def arith (f : ℚ → ℚ → PyR ℚ) : Val → Val → PyR Val
  | .num a, .num b => match f a b with
    | .ok v => .ok (.num v)
    | .error e => .error e
  | _, _ => .error .typeError

/-- Pop two values: `op1 = pop(); op2 = pop()`, then push `f op2 op1` (am_eval.py:88-90). -/
def binop (f : ℚ → ℚ → PyR ℚ) : List Val → PyR (List Val)
  | op1 :: op2 :: st => do
    let v ← arith f op2 op1
    .ok (v :: st)
  | _ => .error .indexError

/-- A primitive as yielded: code and modifiers.  (`eval_macro` yields the text
`"%d,%s" % (code, ",".join(str(x)))`, which its only user splits and converts back with `float`;
`float(str(x)) == x` for every float.) (am_eval.py:107-109) -/
abbrev Out := ℕ × List Val

/-- The loop of `eval_macro` (am_eval.py:77-109): yielded primitives and final dictionary.  The
stack has its top first.  `minus` is what the instruction `SUB` computes from its left and right
operand; see `evalLoop` for the value in the code. -/
def evalLoopWith (minus : ℚ → ℚ → ℚ) : List Instr → Env → List Val → PyR (List Out × Env)
  | [], env, _ => .ok ([], env)
  | .push v :: l, env, st => evalLoopWith minus l env (v :: st)
  | .load n :: l, env, st => evalLoopWith minus l env ((env n).getD (.num 0) :: st)
  | .store n :: l, env, st => match st with
    | [] => .error .indexError
    | v :: st => evalLoopWith minus l (env.set n v) st
  | .add :: l, env, st => do
    let st ← binop (fun a b => .ok (a + b)) st
    evalLoopWith minus l env st
  | .sub :: l, env, st => do
    let st ← binop (fun a b => .ok (minus a b)) st
    evalLoopWith minus l env st
  | .mul :: l, env, st => do
    let st ← binop (fun a b => .ok (a * b)) st
    evalLoopWith minus l env st
  | .div :: l, env, st => do
    let st ← binop (fun a b => if b = 0 then .error .zeroDivisionError else .ok (a / b)) st
    evalLoopWith minus l env st
  | .prim c :: l, env, st => do
    let (o, env') ← evalLoopWith minus l env []
    .ok ((c, st.reverse) :: o, env')
  | .nop :: l, env, st => evalLoopWith minus l env st

/-- The subtraction of the code, sic: `push(op2 - op2)` (am_eval.py:92-95). -/
def codeMinus (a _b : ℚ) : ℚ := a - a

/-- The loop of `eval_macro` as it is (am_eval.py:77-109). -/
def evalLoop : List Instr → Env → List Val → PyR (List Out × Env) := evalLoopWith codeMinus

/-- `eval_macro(instructions, modifiers)` for a tuple or list of modifiers (am_eval.py:54-109). -/
def evalMacroWith (minus : ℚ → ℚ → ℚ) (is : List Instr) (mods : List ℚ) : PyR (List Out) := do
  let (o, _) ← evalLoopWith minus is (envOf mods) []
  .ok o

/-- `eval_macro(instructions, modifiers)` as it is (am_eval.py:54-109). -/
def evalMacro (is : List Instr) (mods : List ℚ) : PyR (List Out) := do
  let (o, _) ← evalLoop is (envOf mods) []
  .ok o

/-- `eval_macro(instructions)` without modifiers: uses and updates the dictionary that is the
default value of the parameter (am_eval.py:54), shared by all such calls. -/
def evalMacroDefault (is : List Instr) (shared : Env) : PyR (List Out × Env) :=
  evalLoop is shared []

/-- The dictionary after running the instructions, also if an exception stopped them (am_eval.py:84-85). -/
def finalEnv : List Instr → Env → List Val → Env
  | [], env, _ => env
  | .push v :: l, env, st => finalEnv l env (v :: st)
  | .load n :: l, env, st => finalEnv l env ((env n).getD (.num 0) :: st)
  | .store n :: l, env, st => match st with
    | [] => env
    | v :: st => finalEnv l (env.set n v) st
  | .add :: l, env, st => match binop (fun a b => .ok (a + b)) st with
    | .ok st => finalEnv l env st
    | .error _ => env
  | .sub :: l, env, st => match binop (fun a b => .ok (codeMinus a b)) st with
    | .ok st => finalEnv l env st
    | .error _ => env
  | .mul :: l, env, st => match binop (fun a b => .ok (a * b)) st with
    | .ok st => finalEnv l env st
    | .error _ => env
  | .div :: l, env, st =>
    match binop (fun a b => if b = 0 then .error .zeroDivisionError else .ok (a / b)) st with
    | .ok st => finalEnv l env st
    | .error _ => env
  | .prim _ :: l, env, _ => finalEnv l env []
  | .nop :: l, env, st => finalEnv l env st

/-- A call of `eval_macro`, exhausted by its caller: the instructions and the modifiers, if
given (am_eval.py:54). -/
structure Call where
  is : List Instr
  mods : Option (List ℚ)

/-- Result of a call when the shared default dictionary is `shared` (am_eval.py:54-109). -/
def Call.result (shared : Env) (c : Call) : PyR (List Out) := match c.mods with
  | some m => evalMacro c.is m
  | none => do
    let (o, _) ← evalMacroDefault c.is shared
    .ok o

/-- The shared default dictionary after a call (am_eval.py:54). -/
def Call.shared (shared : Env) (c : Call) : Env := match c.mods with
  | some _ => shared
  | none => finalEnv c.is shared []

/-- The shared default dictionary after a series of calls; it is empty at first (am_eval.py:54). -/
def sharedAfter (h : List Call) : Env := h.foldl Call.shared fun _ => none

end Verif.Macro
