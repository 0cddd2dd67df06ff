import Verif.CudaStore
import Verif.CudaLimit
import Verif.CudaSampling

/-!
# Host code and the CUDA stream

The host code of an operation only enqueues work: kernels, `cudaMemsetAsync` and
`cudaMemcpyAsync` (tf_gpu_device.cpp:53-76) run later, in order, on the stream of the
operation.  The host waits only in `cudaEventSynchronize`.  Page-locked host
buffers (`getIntTmpGPUBuffer(…, true)`, tf_gpu_device.cpp:120-143) are read and written by
the stream when the copies run; they belong to the operation until it returns
(`tmpTensors_` is destroyed with the device object), afterwards anybody may use the
memory.  Buffers in device memory are handed on in stream order as well (TensorFlow
uses one compute stream), so that they need no such care.
-/

set_option linter.unusedVariables false

namespace PC

/-- Host code: `A` are the page-locked buffers, `V` their contents, `S` the states of the
device memory.
* `launch`: a kernel launch, memset or copy on the device;
* `write`: the host fills a buffer (`memcpy`);
* `upload`: `memcpy_host_to_device`;
* `download`: `memcpy_device_to_host`;
* `sync`: an event is recorded and waited for;
* `read`: the host uses the contents of a buffer. -/
inductive HostProg (A V S : Type)
  | ret
  | launch (op : S → S → Prop) (next : HostProg A V S)
  | write (a : A) (v : V) (next : HostProg A V S)
  | upload (a : A) (put : V → S → S) (next : HostProg A V S)
  | download (a : A) (get : S → V) (next : HostProg A V S)
  | sync (next : HostProg A V S)
  | read (a : A) (next : V → HostProg A V S)

/-- Work on the stream. -/
inductive StreamOp (A V S : Type)
  | run (op : S → S → Prop)
  | up (a : A) (put : V → S → S)
  | down (a : A) (get : S → V)

section
variable {A V S : Type} [DecidableEq A]

/-- Execution of one piece of work, on host buffers and device memory. -/
inductive StreamOp.Exec : StreamOp A V S → (A → V) × S → (A → V) × S → Prop
  | run {op : S → S → Prop} {h : A → V} {d d' : S} (hop : op d d') : Exec (.run op) (h, d) (h, d')
  | up (a : A) (put : V → S → S) (h : A → V) (d : S) : Exec (.up a put) (h, d) (h, put (h a) d)
  | down (a : A) (get : S → V) (h : A → V) (d : S) : Exec (.down a get) (h, d) (Function.update h a (get d), d)

/-- Host code, host buffers, work on the stream that has not been executed yet, device
memory. -/
structure AsyncState (A V S : Type) where
  prog : HostProg A V S
  host : A → V
  queue : List (StreamOp A V S)
  dev : S

/-- The stream still has to read host buffers. -/
def uploadsOf (q : List (StreamOp A V S)) : Set A := { a | ∃ put, StreamOp.up a put ∈ q }
/-- The stream still has to write host buffers. -/
def downloadsOf (q : List (StreamOp A V S)) : Set A := { a | ∃ get, StreamOp.down a get ∈ q }

/-- Steps of the host, of the stream and, after the operation returned, of the new owners
of the host buffers; if `quiet` holds these wait until the stream has read them. -/
inductive AsyncStep (quiet : Prop) : AsyncState A V S → AsyncState A V S → Prop
  | launch (op : S → S → Prop) (p : HostProg A V S) (h : A → V) (q : List (StreamOp A V S)) (d : S) :
      AsyncStep quiet ⟨.launch op p, h, q, d⟩ ⟨p, h, q ++ [.run op], d⟩
  | write (a : A) (v : V) (p : HostProg A V S) (h : A → V) (q : List (StreamOp A V S)) (d : S) :
      AsyncStep quiet ⟨.write a v p, h, q, d⟩ ⟨p, Function.update h a v, q, d⟩
  | upload (a : A) (put : V → S → S) (p : HostProg A V S) (h : A → V) (q : List (StreamOp A V S)) (d : S) :
      AsyncStep quiet ⟨.upload a put p, h, q, d⟩ ⟨p, h, q ++ [.up a put], d⟩
  | download (a : A) (get : S → V) (p : HostProg A V S) (h : A → V) (q : List (StreamOp A V S)) (d : S) :
      AsyncStep quiet ⟨.download a get p, h, q, d⟩ ⟨p, h, q ++ [.down a get], d⟩
  | sync (p : HostProg A V S) (h : A → V) (d : S) : AsyncStep quiet ⟨.sync p, h, [], d⟩ ⟨p, h, [], d⟩
  | read (a : A) (p : V → HostProg A V S) (h : A → V) (q : List (StreamOp A V S)) (d : S) :
      AsyncStep quiet ⟨.read a p, h, q, d⟩ ⟨p (h a), h, q, d⟩
  | stream (p : HostProg A V S) (o : StreamOp A V S) (h h' : A → V) (q : List (StreamOp A V S)) (d d' : S)
      (he : o.Exec (h, d) (h', d')) : AsyncStep quiet ⟨p, h, o :: q, d⟩ ⟨p, h', q, d'⟩
  | reuse (h h' : A → V) (q : List (StreamOp A V S)) (d : S) (hq : quiet → uploadsOf q = ∅) :
      AsyncStep quiet ⟨.ret, h, q, d⟩ ⟨.ret, h', q, d⟩

/-- `d'` is a possible state of the device memory when the operation has returned and the
stream has done its work. -/
def AsyncResult (quiet : Prop) (p : HostProg A V S) (h : A → V) (d d' : S) : Prop :=
  ∃ h', Relation.ReflTransGen (AsyncStep quiet) ⟨p, h, [], d⟩ ⟨.ret, h', [], d'⟩

/-- What the author of the host code has in mind: everything is executed at once. -/
inductive SyncResult : HostProg A V S → (A → V) → S → S → Prop
  | ret (h : A → V) (d : S) : SyncResult .ret h d d
  | launch {op : S → S → Prop} {p : HostProg A V S} {h : A → V} {d d1 d' : S} (hop : op d d1)
      (next : SyncResult p h d1 d') : SyncResult (.launch op p) h d d'
  | write {a : A} {v : V} {p : HostProg A V S} {h : A → V} {d d' : S}
      (next : SyncResult p (Function.update h a v) d d') : SyncResult (.write a v p) h d d'
  | upload {a : A} {put : V → S → S} {p : HostProg A V S} {h : A → V} {d d' : S}
      (next : SyncResult p h (put (h a) d) d') : SyncResult (.upload a put p) h d d'
  | download {a : A} {get : S → V} {p : HostProg A V S} {h : A → V} {d d' : S}
      (next : SyncResult p (Function.update h a (get d)) d d') : SyncResult (.download a get p) h d d'
  | sync {p : HostProg A V S} {h : A → V} {d d' : S} (next : SyncResult p h d d') : SyncResult (.sync p) h d d'
  | read {a : A} {p : V → HostProg A V S} {h : A → V} {d d' : S} (next : SyncResult (p (h a)) h d d') :
      SyncResult (.read a p) h d d'

/-- The host code may create `n` events on the way through the program, whatever it reads: one before every
wait (scan_alg_kernels.cu.cc:260-263, count_unique_keys_kernels.cu.cc:114-117,
count_sampling_pd_kernels.cu.cc:191-194).  No code destroys them (`cudaEventDestroy` does not
occur). -/
inductive HostProg.Events : HostProg A V S → ℕ → Prop
  | ret : Events .ret 0
  | launch {op : S → S → Prop} {p : HostProg A V S} {n : ℕ} (h : Events p n) : Events (.launch op p) n
  | write {a : A} {v : V} {p : HostProg A V S} {n : ℕ} (h : Events p n) : Events (.write a v p) n
  | upload {a : A} {put : V → S → S} {p : HostProg A V S} {n : ℕ} (h : Events p n) : Events (.upload a put p) n
  | download {a : A} {get : S → V} {p : HostProg A V S} {n : ℕ} (h : Events p n) : Events (.download a get p) n
  | sync {p : HostProg A V S} {n : ℕ} (h : Events p n) : Events (.sync p) (n + 1)
  | read {a : A} {p : V → HostProg A V S} {v : V} {n : ℕ} (h : Events (p v) n) : Events (.read a p) n

end

/-! ### `FindNeighborsOp::Compute` -/

/-- The page-locked buffers of the neighbour search: `combOffsetsPinnedMem`
(find_neighbors_ops.cpp:185), `accumScan` (scan_alg_kernels.cu.cc:253). -/
inductive FindBuf
  | offsets | total
  deriving DecidableEq

/-- Contents of a page-locked buffer, read as blocks of offsets or as a number. -/
structure HostVal (D : ℕ) where
  offs : List (List (Fin D → ℤ))
  num : ℕ

/-- The parts of the operation that run on the device. -/
structure FindOps (D : ℕ) (S : Type) where
  /-- find_neighbors_ops.cpp:162 -/
  zero : S → S → Prop
  /-- copy of nine offsets to `tmpGPUPtr3` -/
  put : List (Fin D → ℤ) → S → S
  ranges : S → S → Prop
  count : S → S → Prop
  clamp : S → S → Prop
  /-- all launches of `scan_alg` (scan_alg_kernels.cu.cc:196-251): the host only computes sizes
  between them -/
  scan : S → S → Prop
  /-- the last counter of the scan -/
  total : S → ℕ
  /-- allocation of the output with the given number of rows, and memset -/
  alloc : ℕ → S → S → Prop
  store : S → S → Prop

/-- Host code of the second half (find_neighbors_ops.cpp:219-249), with `n` computations. -/
def FindOps.storeProg {D : ℕ} {S : Type} (o : FindOps D S) (n num : ℕ) : HostProg FindBuf (HostVal D) S :=
  .launch (o.alloc num) ((List.range n).foldr (fun i next =>
    if n > 1 then
      .upload .offsets (fun v d => o.put (v.offs.getD i []) d) (.launch o.ranges (.launch o.store next))
    else .launch o.store next) .ret)

/-- Host code of `FindNeighborsOp::Compute` (find_neighbors_ops.cpp:157-250) after the checks; the
keys of the samples are part of `ranges`. -/
def FindOps.prog {D : ℕ} {S : Type} (o : FindOps D S) (blocks : List (List (Fin D → ℤ))) :
    HostProg FindBuf (HostVal D) S :=
  .launch o.zero (.write .offsets ⟨blocks, 0⟩
    ((List.range blocks.length).foldr (fun i next =>
      .upload .offsets (fun v d => o.put (v.offs.getD i []) d) (.launch o.ranges (.launch o.count next)))
      (.launch o.clamp (.launch o.scan
        (.download .total (fun d => ⟨[], o.total d⟩) (.sync (.read .total (fun v =>
          o.storeProg blocks.length v.num))))))))

/-- Device memory of the search without limit: `tmpGPUPtr3`, `tmpGPUPtr2`, the last counter
of the scan, number of rows of the output, `outputGPUPtr1` and `outputGPUPtr2`. -/
structure FindDev (D : ℕ) where
  offs : List (Fin D → ℤ)
  rg : ℕ → ℕ × ℕ
  total : ℕ
  size : ℕ
  mem : StoreMem

/-- The kernels of the search without limit for `Sm` samples; `ranges` gives the ranges for
offsets (`opRanges`). -/
def plainOps {D : ℕ} (Sm R Wc Ws Wn : ℕ) (ranges : List (Fin D → ℤ) → ℕ → ℕ × ℕ) (hit : ℕ → ℕ → Bool) :
    FindOps D (FindDev D) where
  zero := fun d d' => d' = { d with mem := ⟨fun _ => 0, d.mem.writes⟩ }
  put := fun l d => { d with offs := l }
  ranges := fun d d' => d' = { d with rg := ranges d.offs }
  count := fun d d' => ∃ cnt, CountKernel Sm R 64 Wc d.rg hit d.mem.cnt cnt ∧ d' = { d with mem := ⟨cnt, d.mem.writes⟩ }
  clamp := fun d d' => d' = d
  scan := fun d d' => ∃ (start : ℕ → ℕ) (out : ℕ → ℤ) (total : ℕ),
    ScanRun scanLog Ws 64 Sm (fun i => (d.mem.cnt i : ℤ)) out (total : ℤ) ∧ (∀ s < Sm, (start s : ℤ) = out s) ∧
    d' = { d with mem := ⟨start, d.mem.writes⟩, total := total }
  total := FindDev.total
  alloc := fun n d d' => d' = { d with mem := ⟨d.mem.cnt, []⟩, size := n }
  store := fun d d' => ∃ m, StoreKernel Sm R (storeThreads Sm R 64 Wn) d.rg hit d.mem m ∧ d' = { d with mem := m }

/-- Device memory of the search with limit: additionally the auxiliary memory of the limited
kernel. -/
structure LimDev (D : ℕ) where
  offs : List (Fin D → ℤ)
  rg : ℕ → ℕ × ℕ
  total : ℕ
  size : ℕ
  cnt : ℕ → ℕ
  mem : LimMem

/-- The kernels of the search with limit `m`. -/
def limitOps {D : ℕ} (m : ℕ) (ok : LimItem → Prop) (Sm R Wc Ws Wn : ℕ)
    (ranges : List (Fin D → ℤ) → ℕ → ℕ × ℕ) (hit : ℕ → ℕ → Bool) : FindOps D (LimDev D) where
  zero := fun d d' => d' = { d with cnt := fun _ => 0 }
  put := fun l d => { d with offs := l }
  ranges := fun d d' => d' = { d with rg := ranges d.offs }
  count := fun d d' => ∃ cnt, CountKernel Sm R 64 Wc d.rg hit d.cnt cnt ∧ d' = { d with cnt := cnt }
  clamp := fun d d' => d' = { d with cnt := elemWiseMin m d.cnt }
  scan := fun d d' => ∃ (start : ℕ → ℕ) (out : ℕ → ℤ) (total : ℕ),
    ScanRun scanLog Ws 64 Sm (fun i => (d.cnt i : ℤ)) out (total : ℤ) ∧ (∀ s < Sm, (start s : ℤ) = out s) ∧
    d' = { d with cnt := start, total := total }
  total := LimDev.total
  alloc := fun n d d' => d' = { d with mem := ⟨fun _ => 0, d.cnt, [], []⟩, size := n }
  store := fun d d' => ∃ mem, LimKernel m ok Sm R (storeThreads Sm R 64 Wn) d.rg hit d.mem mem ∧ d' = { d with mem := mem }

/-! ### `SamplingOp::Compute` -/

/-- The page-locked buffers of the sampling: `numUniqueKeys`
(count_unique_keys_kernels.cu.cc:107), `auxNumSampledPts`
(count_sampling_pd_kernels.cu.cc:184). -/
inductive SampBuf
  | keys | samples
  deriving DecidableEq

/-- Device memory: the counter of keys, the first index of every key (`tmpGPUPtr1`), the
selected points and their counter, number of rows and contents of the outputs. -/
structure SampDev (D : ℕ) (K : Type) where
  keys : ℕ
  firsts : StoreMem
  pd : PdMem
  size : ℕ
  out : StoreMem
  avg : ℕ → (Fin D → K) × ℤ

section
variable {D : ℕ} {K : Type} [Field K]

/-- Host code of the beginning of `SamplingOp::Compute` (sampling_ops.cpp:131-140), which goes on
with the number of keys. -/
def sampHead (N Wc Ws : ℕ) (keys : ℕ → ℤ) (next : ℕ → HostProg SampBuf ℕ (SampDev D K)) :
    HostProg SampBuf ℕ (SampDev D K) :=
  .launch (fun d d' => d' = { d with keys := 0 })
    (.launch (fun d d' => ∃ n, CountKeys N 128 Wc keys (n + 1) ∧ d' = { d with keys := n })
      (.download .keys SampDev.keys (.sync (.read .keys (fun v =>
        .launch (fun d d' => ∃ m, CompactKernel (isFirstKey keys) N (launchThreads N Ws) m ∧ d' = { d with firsts := m })
          (next (v + 1)))))))

/-- Poisson disk sampling (sampling_ops.cpp:143-171, count_sampling_pd_kernels.cu.cc:129-198). -/
def poissonProg (N Wc Ws Wp Wo : ℕ) (keys : ℕ → ℤ) (nc : Fin D → ℤ) (nb : ℕ → List ℕ) :
    HostProg SampBuf ℕ (SampDev D K) :=
  sampHead N Wc Ws keys (fun numKeys =>
    .launch (fun d d' => d' = { d with pd := ⟨fun _ => false, 0⟩ })
      ((List.range (2 ^ D)).foldr (fun c next =>
        .launch (fun d d' => ∃ pm, PdKernel N keys nc nb (fun u => (d.firsts.out u).1) numKeys
          (launchThreads numKeys Wp) c d.pd pm ∧ d' = { d with pd := pm }) next)
        (.download .samples (fun d => d.pd.count) (.sync (.read .samples (fun n =>
          .launch (fun d d' => d' = { d with size := n })
            (.launch (fun d d' => ∃ m, CompactKernel d.pd.used N (launchThreads N Wo) m ∧ d' = { d with out := m })
              .ret)))))))

/-- Cell averages (sampling_ops.cpp:173-195). -/
def averageProg (N Wc Ws Wa : ℕ) (keys : ℕ → ℤ) (nc : Fin D → ℤ) (pts : ℕ → Fin D → K) :
    HostProg SampBuf ℕ (SampDev D K) :=
  sampHead N Wc Ws keys (fun numKeys =>
    .launch (fun d d' => d' = { d with size := numKeys })
      (.launch (fun d d' => ∃ tr, Interleave (strideThreads (launchThreads numKeys Wa) numKeys
          (avgBody N keys nc pts (fun u => (d.firsts.out u).1))) tr ∧
          d' = { d with avg := runWrites (fun _ => (fun _ => 0, 0)) tr }) .ret))

end

/-- The other operations (keys, grid, densities, projections and the two gradient operations)
only launch kernels and memsets. -/
def launchProg {A V S : Type} (ops : List (S → S → Prop)) : HostProg A V S :=
  ops.foldr HostProg.launch .ret

/-! ### histories of calls -/

/-- Calls of the operations. -/
inductive GpuCall
  | find | poisson | average | other
  deriving DecidableEq

/-- The events call `c` may create, for some input. -/
def GpuCall.Events (c : GpuCall) (n : ℕ) : Prop :=
  match c with
  | .find => ∃ (D : ℕ) (S : Type) (o : FindOps D S) (blocks : List (List (Fin D → ℤ))), (o.prog blocks).Events n
  | .poisson => ∃ (D N Wc Ws Wp Wo : ℕ) (keys : ℕ → ℤ) (nc : Fin D → ℤ) (nb : ℕ → List ℕ),
      (poissonProg N Wc Ws Wp Wo keys nc nb : HostProg SampBuf ℕ (SampDev D ℚ)).Events n
  | .average => ∃ (D N Wc Ws Wa : ℕ) (keys : ℕ → ℤ) (nc : Fin D → ℤ) (pts : ℕ → Fin D → ℚ),
      (averageProg N Wc Ws Wa keys nc pts).Events n
  | .other => ∃ (S : Type) (ops : List (S → S → Prop)), (launchProg ops : HostProg Unit Unit S).Events n

/-- Events that exist after a history of calls that started with `n`. -/
inductive EventsAfter (n : ℕ) : List GpuCall → ℕ → Prop
  | nil : EventsAfter n [] n
  | cons {c : GpuCall} {cs : List GpuCall} {m k : ℕ} (h : c.Events m) (next : EventsAfter n cs k) :
      EventsAfter n (c :: cs) (k + m)

end PC
