import Verif.Model.Downsample
import Mathlib.Analysis.SpecialFunctions.Log.Basic

/-!
# Model of `riptide/cpp/periodogram.hpp` and the `periodogram` binding

Simplifications: real arithmetic instead of `double`/`float`; the conversions of a non-negative real to `size_t` do not
overflow (they would for period_max / tau ≥ 2^64).
-/

namespace Verif.Model

/-- Scalar arguments of the search. -/
structure PgArgs where
  size : ℕ
  tsamp : ℝ
  pmin : ℝ
  pmax : ℝ
  bmin : ℕ
  bmax : ℕ

/-- `periodogram_check_arguments`, periodogram.hpp 25-40: the conjunction of all checks. -/
def PgArgs.Valid (a : PgArgs) : Prop :=
  0 < a.tsamp ∧ 0 < a.pmin ∧ a.pmin < a.pmax ∧ 1 < a.bmin ∧ a.bmin ≤ a.bmax ∧ a.tsamp * a.bmin ≤ a.pmin

/-- `ds_ini`, periodogram.hpp 75 and 135. -/
noncomputable def PgArgs.dsIni (a : PgArgs) : ℝ := a.pmin / (a.tsamp * a.bmin)

/-- `ds_geo`, periodogram.hpp 78 and 138. -/
noncomputable def PgArgs.dsGeo (a : PgArgs) : ℝ := ((a.bmax : ℝ) + 1) / a.bmin

/-- `num_downsamplings`, periodogram.hpp 81 and 141. -/
noncomputable def PgArgs.numDs (a : PgArgs) : ℕ := ⌈Real.log (a.pmax / a.pmin) / Real.log a.dsGeo⌉₊

/-- `f`, periodogram.hpp 87 and 155. -/
noncomputable def PgArgs.f (a : PgArgs) (ids : ℕ) : ℝ := a.dsIni * a.dsGeo ^ ids

/-- `tau`, periodogram.hpp 88 and 156. -/
noncomputable def PgArgs.tau (a : PgArgs) (ids : ℕ) : ℝ := a.f ids * a.tsamp

/-- `period_max_samples`, periodogram.hpp 89 and 157. -/
noncomputable def PgArgs.pmaxSamples (a : PgArgs) (ids : ℕ) : ℝ := a.pmax / a.tau ids

/-- `n`, periodogram.hpp 90 and 158. -/
noncomputable def PgArgs.n (a : PgArgs) (ids : ℕ) : ℕ := downsampledSize a.size (a.f ids)

/-- `bstop`, periodogram.hpp 97 and 175. -/
noncomputable def PgArgs.bstop (a : PgArgs) (ids : ℕ) : ℕ := min (min a.bmax (a.n ids)) ⌊a.pmaxSamples ids⌋₊

/-- `ceilshift(rows, cols, pmax)`, periodogram.hpp 54-57. -/
noncomputable def ceilshift (rows cols : ℕ) (pmax : ℝ) : ℕ :=
  ⌈(cols : ℝ) * ((rows : ℝ) - 1) * (1 - cols / pmax)⌉₊

/-- `period_ceil`, periodogram.hpp 103 and 182. -/
noncomputable def PgArgs.periodCeil (a : PgArgs) (ids bins : ℕ) : ℝ := min (a.pmaxSamples ids) ((bins : ℝ) + 1)

/-- `rows_eval`, periodogram.hpp 102-104 and 180-183. -/
noncomputable def PgArgs.rowsEval (a : PgArgs) (ids bins : ℕ) : ℕ :=
  let rows := a.n ids / bins
  min rows (ceilshift rows bins (a.periodCeil ids bins))

/-- `for (i = 0; i < n; ++i) length += g(i)`. -/
def loopSum (g : ℕ → ℕ) : ℕ → ℕ
  | 0 => 0
  | n + 1 => loopSum g n + g n

open Classical in
/-- `periodogram_length`, periodogram.hpp 63-109. -/
noncomputable def periodogramLength (a : PgArgs) : Except CallErr ℕ :=
  if ¬ a.Valid then .error .valueError
  else .ok (loopSum (fun ids =>
    loopSum (fun j => a.rowsEval ids (a.bmin + j)) (a.bstop ids + 1 - a.bmin)) a.numDs)

/-- Base addresses of the `float` arrays of the search (periodogram.hpp 144-150). -/
structure PgLayout where
  data : ℕ
  input : ℕ
  ffabuf : ℕ
  ffaout : ℕ

/-- State of the search: `float` memory (data and scratch buffers), the three output arrays, and how far the output
pointers have been advanced. -/
structure PgState where
  mem : Mem ℝ
  per : Mem ℝ
  fb : Mem ℕ
  snr : Mem ℝ
  ppos : ℕ
  spos : ℕ

/-- `n` consecutive stores `out[i] = v(i)`. -/
def storeSeq {β : Type*} (a : ℕ) (v : ℕ → β) (n : ℕ) (mem : Mem β) : Except CallErr (Mem β) :=
  forE (fun i mem => orUB (mem.store (a + i) (v i))) n mem

/-- The `n` cells read by `snr1` from address `a`; every one must hold a value. -/
noncomputable def loadRow (mem : Mem ℝ) (a n : ℕ) : Except CallErr (ℕ → ℝ) :=
  if (List.range n).all (fun i => (mem.load (a + i)).isSome) then
    .ok (fun i => if i < n then (mem.load (a + i)).getD 0 else 0)
  else .error .undefinedBehaviour

/-- `snr2(block, widths, num_widths, stdnoise, out)`, snr.hpp 58-65, on memory: one `snr1` per row of the block at
address `block`, `num_widths` results stored per row. Simplification: the temporary prefix sums of `snr1` (snr.hpp 40-41) are
not placed in this memory, they are the `Option` array of `circularPrefixSum`. -/
noncomputable def snr2Mem (mem : Mem ℝ) (block rows bins : ℕ) (widths : List ℕ) (std : ℝ) (out : ℕ)
    (snr : Mem ℝ) : Except CallErr (Mem ℝ) :=
  forE (fun i snr =>
    (loadRow mem (block + i * bins) bins).bind fun row =>
    (snr1 bins row widths std).bind fun vs =>
    storeSeq (out + i * widths.length) (fun k => vs.getD k 0) widths.length snr) rows snr

/-- Body of the FFA transform loop, periodogram.hpp 178-199. -/
noncomputable def pgFold (idx : IdxRule) (a : PgArgs) (L : PgLayout) (widths : List ℕ) (input ids bins : ℕ)
    (st : PgState) : Except CallErr PgState :=
  let rows := a.n ids / bins
  let std := Real.sqrt (rows * downsampledVariance a.size (a.f ids))
  let rowsEval := a.rowsEval ids bins
  (orUB (transformMem (· + ·) idx rows bins input L.ffabuf L.ffaout st.mem)).bind fun mem =>
  (snr2Mem mem L.ffaout rowsEval bins widths std st.spos st.snr).bind fun snr =>
  (storeSeq st.ppos (fun s => a.tau ids * bins * bins / (bins - s / ((rows : ℝ) - 1))) rowsEval st.per).bind fun per =>
  (storeSeq st.ppos (fun _ => bins) rowsEval st.fb).bind fun fb =>
  .ok { mem, per, fb, snr, ppos := st.ppos + rowsEval, spos := st.spos + rowsEval * widths.length }

open Classical in
/-- Body of the downsampling loop, periodogram.hpp 153-200. -/
noncomputable def pgStage (idx : IdxRule) (a : PgArgs) (L : PgLayout) (widths : List ℕ) (ids : ℕ) (st : PgState) :
    Except CallErr PgState :=
  let f := a.f ids
  let input := if f = 1 then L.data else L.input
  (if f = 1 then .ok st
    else (downsampleMem L.data a.size f L.input st.mem).bind fun mem => .ok { st with mem }).bind fun st =>
  forE (fun j => pgFold idx a L widths input ids (a.bmin + j)) (a.bstop ids + 1 - a.bmin) st

open Classical in
/-- `periodogram`, periodogram.hpp 117-201, from the point where the buffers are allocated. -/
noncomputable def periodogramMem (idx : IdxRule) (a : PgArgs) (L : PgLayout) (widths : List ℕ) (st : PgState) :
    Except CallErr PgState :=
  if ¬ a.Valid then .error .valueError
  else forE (pgStage idx a L widths) a.numDs st

/-- A fresh, uninitialised array of `n` elements. -/
def freshMem (β : Type*) (n : ℕ) : Mem β := fun i => if i < n then .uninit else .unalloc

/-- `periodogram(data, tsamp, widths, period_min, period_max, bins_min, bins_max)` binding, python_bindings.cpp 180-209,
with the allocation of the scratch buffers (periodogram.hpp 144-150) placed after the data. Returns the periods, the
numbers of bins and the rows of the S/N array. -/
noncomputable def periodogramBinding (idx : IdxRule) (data : List ℝ) (tsamp : ℝ) (widths : List ℕ) (pmin pmax : ℝ)
    (bmin bmax : ℕ) : Except CallErr (List ℝ × List ℕ × List (List ℝ)) :=
  let a : PgArgs := { size := data.length, tsamp, pmin, pmax, bmin, bmax }
  (periodogramLength a).bind fun length =>
  let bufsize := downsampledSize a.size a.dsIni
  let N := data.length
  let st : PgState :=
    { mem := callMem data (bufsize + bufsize + bufsize), per := freshMem ℝ length, fb := freshMem ℕ length,
      snr := freshMem ℝ (length * widths.length), ppos := 0, spos := 0 }
  let L : PgLayout := { data := 0, input := N, ffabuf := N + bufsize, ffaout := N + bufsize + bufsize }
  (periodogramMem idx a L widths st).bind fun st =>
  (readArray st.per 0 length).bind fun periods =>
  (readArray st.fb 0 length).bind fun foldbins =>
  ((List.range length).mapM (fun j => readArray st.snr (j * widths.length) widths.length)).bind fun snrs =>
  .ok (periods, foldbins, snrs)

end Verif.Model
