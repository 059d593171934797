import Verif.Basic

/-!
# The return stack for compressed returns: libipt/src/pt_retstack.c
-/

namespace Ipt

/-- `struct pt_retstack`, libipt/internal/include/pt_retstack.h:42-57: a ring of 65 slots. -/
structure RetStack where
  stack : List Nat := List.replicate 65 0
  top : Nat := 0
  bottom : Nat := 0
deriving DecidableEq, Repr

/-- libipt/src/pt_retstack.c:35-42 `pt_retstack_init`: the slots keep their contents. -/
def RetStack.init (s : RetStack) : RetStack := { s with top := 0, bottom := 0 }

/-- libipt/src/pt_retstack.c:44-50 `pt_retstack_is_empty`. -/
def RetStack.isEmpty (s : RetStack) : Bool := s.top == s.bottom

/-- libipt/src/pt_retstack.c:52-74 `pt_retstack_pop`; a read outside the array is `ub`. -/
def RetStack.pop (s : RetStack) : RetStack × Res Nat :=
  if s.top = s.bottom then (s, .err .retstackEmpty)
  else
    let top := if s.top = 0 then 64 else s.top - 1
    ({ s with top := top }, match s.stack[top]? with | some ip => .ok ip | none => .ub)

/-- libipt/src/pt_retstack.c:76-98 `pt_retstack_push`; a write outside the array is `ub`. -/
def RetStack.push (s : RetStack) (ip : Nat) : RetStack × Res Unit :=
  let top := if s.top = 64 then 0 else s.top + 1
  let bottom := if s.bottom = top then (if s.bottom = 64 then 0 else s.bottom + 1) else s.bottom
  ({ stack := s.stack.set s.top ip, top := top, bottom := bottom },
    if s.top < s.stack.length then .ok () else .ub)

end Ipt
