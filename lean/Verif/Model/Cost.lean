import Verif.Model.Periodogram

/-!
# The search with a counter of additions

`kernels.hpp` 9-25, `transforms.hpp` and `periodogram.hpp` 117-201 once more, with a counter that goes up with every addition of two numbers in
`add()`. The additions of `downsample`, of the S/N and of indices are not counted. Simplifications as in `Model/Memory.lean` and
`Model/Periodogram.lean`.
-/

namespace Verif.Model

variable {α : Type*}

/-- `add(x, y, size, z)`, kernels.hpp 9-13. -/
def addCount (add : α → α → α) (x y size z : ℕ) (st : Mem α × ℕ) : Option (Mem α × ℕ) :=
  forLoop (fun i st =>
    (st.1.load (x + i)).bind fun a =>
    (st.1.load (y + i)).bind fun b =>
    (st.1.store (z + i) (add a b)).bind fun mem => some (mem, st.2 + 1)) size st

/-- `fused_rollback_add(x, y, size, shift, z)`, kernels.hpp 19-25. -/
def fusedRollbackAddCount (add : α → α → α) (x y size shift z : ℕ) (st : Mem α × ℕ) : Option (Mem α × ℕ) :=
  if size = 0 then none else
  let p := shift % size
  let q := size - p
  (addCount add x (y + p) q z st).bind fun st =>
  addCount add (x + q) y p (z + q) st

/-- `merge(thead, ttail, out)`, transforms.hpp 13-27. -/
def mergeCount (add : α → α → α) (idx : IdxRule) (m p thead ttail out : ℕ) (st : Mem α × ℕ) : Option (Mem α × ℕ) :=
  forLoop (fun s st =>
    let h := idx (m / 2) m s
    let t := idx (m - m / 2) m s
    fusedRollbackAddCount add (thead + h * p) (ttail + t * p) p (mergeShift s h t) (out + s * p) st) m st

/-- `transform(input, temp, out)`, transforms.hpp 30-50. -/
def transformCount (add : α → α → α) (idx : IdxRule) (m p input temp out : ℕ) (st : Mem α × ℕ) : Option (Mem α × ℕ) :=
  if m = 2 then
    (addCount add (input + 0 * p) (input + 1 * p) p (out + 0 * p) st).bind fun st =>
    fusedRollbackAddCount add (input + 0 * p) (input + 1 * p) p 1 (out + 1 * p) st
  else if m = 1 then
    (memcpyMem out input p st.1).bind fun mem => some (mem, st.2)
  else if m = 0 then none
  else
    let h := m / 2
    (transformCount add idx h p input out temp st).bind fun st =>
    (transformCount add idx (m - h) p (input + h * p) (out + h * p) (temp + h * p) st).bind fun st =>
    mergeCount add idx m p temp (temp + h * p) out st
termination_by m

/-- Body of the FFA transform loop, periodogram.hpp 178-199. -/
noncomputable def foldCount (idx : IdxRule) (a : PgArgs) (L : PgLayout) (widths : List ℕ) (input ids bins : ℕ)
    (st : PgState × ℕ) : Except CallErr (PgState × ℕ) :=
  let rows := a.n ids / bins
  let std := Real.sqrt (rows * downsampledVariance a.size (a.f ids))
  let rowsEval := a.rowsEval ids bins
  (orUB (transformCount (· + ·) idx rows bins input L.ffabuf L.ffaout (st.1.mem, st.2))).bind fun mem =>
  (snr2Mem mem.1 L.ffaout rowsEval bins widths std st.1.spos st.1.snr).bind fun snr =>
  (storeSeq st.1.ppos (fun s => a.tau ids * bins * bins / (bins - s / ((rows : ℝ) - 1))) rowsEval st.1.per).bind fun per =>
  (storeSeq st.1.ppos (fun _ => bins) rowsEval st.1.fb).bind fun fb =>
  .ok ({ mem := mem.1, per, fb, snr, ppos := st.1.ppos + rowsEval, spos := st.1.spos + rowsEval * widths.length }, mem.2)

open Classical in
/-- Body of the downsampling loop, periodogram.hpp 153-200. -/
noncomputable def stageCount (idx : IdxRule) (a : PgArgs) (L : PgLayout) (widths : List ℕ) (ids : ℕ) (st : PgState × ℕ) :
    Except CallErr (PgState × ℕ) :=
  let f := a.f ids
  let input := if f = 1 then L.data else L.input
  (if f = 1 then .ok st
    else (downsampleMem L.data a.size f L.input st.1.mem).bind fun mem => .ok ({ st.1 with mem }, st.2)).bind fun st =>
  forE (fun j => foldCount idx a L widths input ids (a.bmin + j)) (a.bstop ids + 1 - a.bmin) st

open Classical in
/-- `periodogram`, periodogram.hpp 117-201. -/
noncomputable def periodogramCount (idx : IdxRule) (a : PgArgs) (L : PgLayout) (widths : List ℕ) (st : PgState × ℕ) :
    Except CallErr (PgState × ℕ) :=
  if ¬ a.Valid then .error .valueError
  else forE (stageCount idx a L widths) a.numDs st

/-- The `periodogram` binding, python_bindings.cpp 180-209: its result and the number of additions. -/
noncomputable def bindingCount (idx : IdxRule) (data : List ℝ) (tsamp : ℝ) (widths : List ℕ) (pmin pmax : ℝ)
    (bmin bmax : ℕ) : Except CallErr ((List ℝ × List ℕ × List (List ℝ)) × ℕ) :=
  let a : PgArgs := { size := data.length, tsamp, pmin, pmax, bmin, bmax }
  (periodogramLength a).bind fun length =>
  let bufsize := downsampledSize a.size a.dsIni
  let N := data.length
  let st : PgState :=
    { mem := callMem data (bufsize + bufsize + bufsize), per := freshMem ℝ length, fb := freshMem ℕ length,
      snr := freshMem ℝ (length * widths.length), ppos := 0, spos := 0 }
  let L : PgLayout := { data := 0, input := N, ffabuf := N + bufsize, ffaout := N + bufsize + bufsize }
  (periodogramCount idx a L widths (st, 0)).bind fun st =>
  (readArray st.1.per 0 length).bind fun periods =>
  (readArray st.1.fb 0 length).bind fun foldbins =>
  ((List.range length).mapM (fun j => readArray st.1.snr (j * widths.length) widths.length)).bind fun snrs =>
  .ok ((periods, foldbins, snrs), st.2)

/-- `benchmark_ffa2(rows, cols, loops)`, python_bindings.cpp 99-120: the input is zero, the two other thirds of the buffer are not initialised.
Returns the memory and the number of additions; the time is not modelled. -/
noncomputable def benchmarkCount (idx : IdxRule) (rows cols loops : ℕ) : Option (Mem ℝ × ℕ) :=
  let size := rows * cols
  forLoop (fun _ st => transformCount (· + ·) idx rows cols 0 size (size + size) st) loops (callMem (List.replicate size 0) (2 * size), 0)

end Verif.Model
