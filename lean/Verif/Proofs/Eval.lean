import Verif.Model.ParseFns
/-!
# Evaluating the parser on concrete texts

The examples beside the theorems run the model on concrete texts in the kernel.  The kernel evaluates
lazily; `runF` is `run` with the state brought into normal form around each call, which makes this
feasible.  `parseRoot_eval` says that it is the same function.
-/

namespace Jsparse

def forceBool {α : Type} (b : Bool) (k : Bool → α) : α :=
  match b with
  | true => k true
  | false => k false

def forceNat {α : Type} (n : Nat) (k : Nat → α) : α :=
  match n with
  | 0 => k 0
  | m + 1 => k (m + 1)

def forceBytes {α : Type} (l : Bytes) (k : Bytes → α) : α :=
  match l with
  | [] => k []
  | a :: l => forceBytes l fun l => k (a :: l)

def forceToken {α : Type} (t : Token) (k : Token → α) : α :=
  match t with
  | .punct p => k (.punct p)
  | .comment f v => k (.comment f v)
  | .whitespace => k .whitespace
  | .lineTerminator => k .lineTerminator
  | .regex p f => k (.regex p f)
  | .ident v => forceBytes v fun v => k (.ident v)
  | .num v => k (.num v)
  | .str v => k (.str v)
  | .template f c r => k (.template f c r)
  | .eof => k .eof

def forceLook {α : Type} (l : Look) (k : Look → α) : α :=
  forceBool l.line fun a => forceToken l.token fun t => k ⟨a, t, l.range⟩

def forceFlags {α : Type} (f : Flags) (k : Flags → α) : α :=
  forceBool f.allowIn fun a => forceBool f.allowYield fun b => forceBool f.allowAwait fun c =>
  forceBool f.allowReturn fun d => forceBool f.allowDefault fun e => forceBool f.isModule fun g =>
  forceBool f.isStrict fun h => forceBool f.expectTemplate fun i => k ⟨a, b, c, d, e, g, h, i⟩

def forceStack {α : Type} (l : List Flags) (k : List Flags → α) : α :=
  match l with
  | [] => k []
  | a :: l => forceFlags a fun a => forceStack l fun l => k (a :: l)

def forceHint {α : Type} (h : Hint) (k : Hint → α) : α :=
  forceBool h.expression fun a => forceBool h.template fun b => forceBool h.strict fun c => k ⟨a, b, c⟩

def forceState {α : Type} (s : PState) (k : PState → α) : α :=
  forceBool s.tok.checked fun ch => forceBytes s.tok.code fun code =>
  forceNat s.tok.position.offset fun o => forceNat s.tok.position.line fun li =>
  forceNat s.tok.position.column fun co => forceHint s.hint fun hint =>
  forceFlags s.flags fun flags => forceStack s.stack fun stack =>
  forceLook s.slot0 fun s0 => forceLook s.slot1 fun s1 => forceBool s.index fun i =>
  forceNat s.count fun n => k ⟨⟨ch, code, ⟨o, li, co⟩⟩, hint, flags, stack, s0, s1, i, n, s.log⟩

def forceRes {α : Type} (r : Res α) : Res α :=
  match r with
  | .ok a s => forceState s fun s => .ok a s
  | .err e s => .err e s
  | .panic p => .panic p
  | .timeout => .timeout

theorem forceBool_eq {α : Type} (b : Bool) (k : Bool → α) : forceBool b k = k b := by cases b <;> rfl
theorem forceNat_eq {α : Type} (n : Nat) (k : Nat → α) : forceNat n k = k n := by cases n <;> rfl
theorem forceBytes_eq {α : Type} (l : Bytes) (k : Bytes → α) : forceBytes l k = k l := by
  induction l generalizing k with
  | nil => rfl
  | cons a l ih => exact ih _
theorem forceToken_eq {α : Type} (t : Token) (k : Token → α) : forceToken t k = k t := by
  cases t <;> first | rfl | exact forceBytes_eq _ _
theorem forceLook_eq {α : Type} (l : Look) (k : Look → α) : forceLook l k = k l := by
  simp only [forceLook, forceBool_eq, forceToken_eq]
theorem forceFlags_eq {α : Type} (f : Flags) (k : Flags → α) : forceFlags f k = k f := by
  simp only [forceFlags, forceBool_eq]
theorem forceStack_eq {α : Type} (l : List Flags) (k : List Flags → α) : forceStack l k = k l := by
  induction l generalizing k with
  | nil => rfl
  | cons a l ih => simp only [forceStack, forceFlags_eq]; exact ih _
theorem forceHint_eq {α : Type} (h : Hint) (k : Hint → α) : forceHint h k = k h := by
  simp only [forceHint, forceBool_eq]
theorem forceState_eq {α : Type} (s : PState) (k : PState → α) : forceState s k = k s := by
  simp only [forceState, forceBool_eq, forceBytes_eq, forceNat_eq, forceHint_eq, forceFlags_eq,
    forceStack_eq, forceLook_eq]
theorem forceRes_eq {α : Type} (r : Res α) : forceRes r = r := by
  cases r <;> first | rfl | exact forceState_eq _ _

/-- `run` with forced states. -/
def runF : Nat → Fn → P (Option Unit)
  | 0, _ => fun _ => .timeout
  | n + 1, f => fun s => forceState s fun s => forceRes (body ⟨n, runF n⟩ f s)

theorem runF_eq (n : Nat) : runF n = run n := by
  induction n with
  | zero => rfl
  | succ n ih =>
    funext f s
    simp only [runF, forceState_eq, forceRes_eq, ih]
    rfl

def parseModuleF (n : Nat) (checked : Bool) (code : Bytes) : Res Unit :=
  parseModule ⟨n, runF n⟩ (initState checked code)

theorem parseModule_eval (n : Nat) (checked : Bool) (code : Bytes) :
    parseModuleFuel n checked code = parseModuleF n checked code := by
  unfold parseModuleFuel parseModuleF recOf
  rw [runF_eq]

theorem parseRoot_eval (checked : Bool) (code : Bytes) :
    parseRoot checked code = (parseModuleF (fuelFor code) checked code).outcome := by
  unfold parseRoot
  rw [parseModule_eval]

end Jsparse
