import Verif.Sched

/-!
# `mccnn::atomicMax` (`custom_ops/tfg_custom_ops/shared/cc/kernels/cuda_kernel_utils.h:54-65`)

The loop around `atomicCAS` by which the library offers an atomic maximum on floats.  No kernel of the
library calls it at present; the header exports it to all of them.
-/

set_option linter.unusedVariables false

namespace PC

/-- A thread that executes calls of `atomicMax` one after the other: the calls `(address, value)` left, the
bits `assumed` of the current call if it has read the address, the values returned so far. -/
structure CasThread (A β : Type*) where
  todo : List (A × β)
  assumed : Option β
  rets : List β

/-- One memory access of a thread.  `fmax v e` are the bits of `fmaxf(v, e)`; the comparison in `atomicCAS` and in
the condition of the loop is on bits.
* Not yet read: `old = *address_as_i; assumed = old` (lines 57, 59).
* Otherwise `old = atomicCAS(address, assumed, fmaxf(pVal, assumed))` (lines 60-61): if the address holds `assumed`, it
  gets the new value, the loop ends and the call returns `old` (lines 62-63); else the loop continues with `assumed = old`. -/
def casStep {A β : Type*} [DecidableEq A] [DecidableEq β] (fmax : β → β → β) (m : A → β) (l : CasThread A β) :
    Option ((A → β) × CasThread A β) :=
  match l.todo, l.assumed with
  | [], _ => none
  | (a, v) :: rest, none => some (m, ⟨(a, v) :: rest, some (m a), l.rets⟩)
  | (a, v) :: rest, some e =>
    if m a = e then some (Function.update m a (fmax v e), ⟨rest, none, l.rets ++ [e]⟩)
    else some (m, ⟨(a, v) :: rest, some (m a), l.rets⟩)

/-- A launch in which thread `t` executes the calls `progs t`, in any schedule, until all have returned. -/
def CasRun {A β : Type*} [DecidableEq A] [DecidableEq β] (fmax : β → β → β) {T : ℕ} (progs : Fin T → List (A × β))
    (m m' : A → β) (rets : Fin T → List β) : Prop :=
  ∃ ls : Fin T → CasThread A β, Steps (casStep fmax) (m, fun t => ⟨progs t, none, []⟩) (m', ls) ∧
    Halted (casStep fmax) (m', ls) ∧ rets = fun t => (ls t).rets

end PC
