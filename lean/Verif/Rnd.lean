import Mathlib.Data.List.Basic
import Mathlib.Dynamics.PeriodicPts.Defs

/-!
# Random numbers of the CUDA kernels (`custom_ops/tfg_custom_ops/shared/cc/kernels/rnd_utils.h`)

`unsigned int` is `BitVec 32`; `int` variables hold the same bits.
-/

set_option linter.unusedVariables false

namespace PC

/-- `wang_hash` (rnd_utils.h:28-36). -/
def wangHash (seed : BitVec 32) : BitVec 32 :=
  let s := (seed ^^^ 61#32) ^^^ (seed >>> 16)
  let s := s * 9#32
  let s := s ^^^ (s >>> 4)
  let s := s * 0x27d4eb2d#32
  s ^^^ (s >>> 15)

/-- `rand_xorshift` (rnd_utils.h:38-44). -/
def randXorshift (seed : BitVec 32) : BitVec 32 :=
  let s := seed ^^^ (seed <<< 13)
  let s := s ^^^ (s >>> 17)
  s ^^^ (s <<< 5)

/-- The initial value of `curSeed` in thread `t` of a launch with seed `time`
(store_neighbors_kernels.cu.cc:70; the host passes `time(NULL)`, line 217).  The sum wraps around. -/
def threadSeed (time : BitVec 32) (t : ℕ) : BitVec 32 := wangHash (time + BitVec.ofNat 32 t)

/-- `curSeed` after `n` draws (store_neighbors_kernels.cu.cc:100, 103). -/
def threadState (time : BitVec 32) (t n : ℕ) : BitVec 32 := randXorshift^[n] (threadSeed time t)

end PC
