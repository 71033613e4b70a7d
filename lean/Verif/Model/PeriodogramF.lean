import Verif.Model.Periodogram
import Verif.Model.Float
import Mathlib.Data.Rat.Floor

/-!
# Model of `riptide/cpp/periodogram.hpp` and `downsample.hpp` in rounded (double precision) arithmetic

Where `Model/Periodogram.lean` computes with real numbers, here a `double` is the rational number it denotes, every operation is
the exact operation followed by the rounding `A.fl`, and `log` and `pow` are functions of the C library.
Conversions of a `double` to `size_t` are checked: out of range they are undefined behaviour.

Simplifications: no overflow to infinity and no NaN; expressions are evaluated in source order, and the two copies
of an expression in `periodogram_length` and `periodogram` give the same value (setup.py 6-20 selects flags for
this); integer arithmetic on `size_t` does not wrap. The samples and the S/N values (single precision) have an arbitrary type
with arbitrary operations, so that no assumption is made about their arithmetic.
-/

namespace Verif.Model

/-- Arithmetic of `double`: rounding of an exact result, `log`, `pow(x, k)`, and whether the compiler contracts
`k * f + f` (downsample.hpp 58-59) to a fused multiply-add. -/
structure DArith where
  fl : ℚ → ℚ
  log : ℚ → ℚ
  pow : ℚ → ℕ → ℚ
  fused : Bool

/-- Operations on the samples: addition, weight times sample, addition of weight times sample, and the S/N values of a folded row, as functions of the number of
bins, the row, the widths, the number of rows, the size of the data, the downsampling factor and the index of the width. -/
structure VOps (V : Type*) where
  add : V → V → V
  wmul : ℚ → V → V
  wadd : V → ℚ → V → V
  snr : ℕ → (ℕ → V) → List ℕ → ℕ → ℕ → ℚ → ℕ → V

/-- Conversion of a `double` to `size_t`: truncation towards zero, undefined unless the result fits. -/
def toSize (q : ℚ) : Except CallErr ℕ :=
  if -1 < q ∧ q < 2 ^ 64 then .ok ⌊q⌋₊ else .error .undefinedBehaviour

/-- Scalar arguments of the search; the rational arguments are `double`s. -/
structure DArgs where
  size : ℕ
  tsamp : ℚ
  pmin : ℚ
  pmax : ℚ
  bmin : ℕ
  bmax : ℕ

namespace DArith

variable (A : DArith) (a : DArgs)

/-- `periodogram_check_arguments`, periodogram.hpp 25-40. -/
def Valid : Prop :=
  0 < a.tsamp ∧ 0 < a.pmin ∧ a.pmin < a.pmax ∧ 1 < a.bmin ∧ a.bmin ≤ a.bmax ∧ A.fl (a.tsamp * A.fl a.bmin) ≤ a.pmin

instance : Decidable (A.Valid a) := by unfold Valid; infer_instance

/-- `downsampled_size(num_samples, f)`, downsample.hpp 21-24. -/
def dsSize (size : ℕ) (f : ℚ) : Except CallErr ℕ := toSize (⌊A.fl (A.fl size / f)⌋ : ℚ)

/-- `ds_ini`, periodogram.hpp 75 and 135. -/
def dsIni : ℚ := A.fl (a.pmin / A.fl (a.tsamp * A.fl a.bmin))

/-- `ds_geo`, periodogram.hpp 78 and 138. -/
def dsGeo : ℚ := A.fl (A.fl (A.fl a.bmax + 1) / A.fl a.bmin)

/-- `num_downsamplings`, periodogram.hpp 81 and 141. -/
def numDs : Except CallErr ℕ :=
  toSize (⌈A.fl (A.log (A.fl (a.pmax / a.pmin)) / A.log (A.dsGeo a))⌉ : ℚ)

/-- `f`, periodogram.hpp 87 and 155. -/
def f (ids : ℕ) : ℚ := A.fl (A.dsIni a * A.pow (A.dsGeo a) ids)

/-- `tau`, periodogram.hpp 88 and 156. -/
def tau (ids : ℕ) : ℚ := A.fl (A.f a ids * a.tsamp)

/-- `period_max_samples`, periodogram.hpp 89 and 157. -/
def pmaxSamples (ids : ℕ) : ℚ := A.fl (a.pmax / A.tau a ids)

/-- `n`, periodogram.hpp 90 and 158. -/
def n (ids : ℕ) : Except CallErr ℕ := A.dsSize a.size (A.f a ids)

/-- `bstop`, periodogram.hpp 97 and 175, given `n`. -/
def bstop (ids n : ℕ) : Except CallErr ℕ :=
  (toSize (A.pmaxSamples a ids)).map fun m => min (min a.bmax n) m

/-- `ceilshift(rows, cols, pmax)`, periodogram.hpp 54-57. -/
def ceilshift (rows cols : ℕ) (pmax : ℚ) : Except CallErr ℕ :=
  toSize (⌈A.fl (A.fl (A.fl cols * A.fl (A.fl rows - 1)) * A.fl (1 - A.fl (A.fl cols / pmax)))⌉ : ℚ)

/-- `period_ceil`, periodogram.hpp 103 and 182. -/
def periodCeil (ids bins : ℕ) : ℚ := min (A.pmaxSamples a ids) (A.fl (A.fl bins + 1))

/-- `rows_eval`, periodogram.hpp 102-104 and 180-183, given `n`. -/
def rowsEval (ids n bins : ℕ) : Except CallErr ℕ :=
  (A.ceilshift (n / bins) bins (A.periodCeil a ids bins)).map fun c => min (n / bins) c

/-- Body of the downsampling loop of `periodogram_length`, periodogram.hpp 85-107. -/
def lengthStage (ids len : ℕ) : Except CallErr ℕ :=
  (A.n a ids).bind fun n =>
  (A.bstop a ids n).bind fun bstop =>
  forE (fun j len => (A.rowsEval a ids n (a.bmin + j)).map fun r => len + r) (bstop + 1 - a.bmin) len

/-- `periodogram_length`, periodogram.hpp 63-109. -/
def length : Except CallErr ℕ :=
  if ¬ A.Valid a then .error .valueError
  else (A.numDs a).bind fun nd => forE (A.lengthStage a) nd 0

/-- `periods[s]`, periodogram.hpp 192, given `rows`. -/
def label (ids rows bins s : ℕ) : ℚ :=
  A.fl (A.fl (A.fl (A.tau a ids * A.fl bins) * A.fl bins) / A.fl (A.fl bins - A.fl (A.fl s / A.fl (A.fl rows - 1))))

variable {V : Type*} (O : VOps V)

/-- Body of the output sample loop of `downsample`, downsample.hpp 54-81. -/
def downsampleBody (inp size : ℕ) (f : ℚ) (out k : ℕ) (mem : Mem V) : Except CallErr (Mem V) :=
  let start : ℚ := A.fl (A.fl k * f)
  let stop : ℚ := if A.fused then A.fl (A.fl k * f + f) else A.fl (start + f)
  (toSize (⌊start⌋ : ℚ)).bind fun imin =>
  (toSize (min (⌊stop⌋ : ℚ) (A.fl (A.fl size - 1)))).bind fun imax =>
  let wmin : ℚ := A.fl (A.fl (imin + 1 : ℕ) - start)
  let wmax : ℚ := A.fl (stop - A.fl imax)
  (orUB (mem.load (inp + imin))).bind fun v =>
  (forE (fun t acc => (orUB (mem.load (inp + (imin + 1 + t)))).bind fun v => .ok (O.add acc v))
    (imax - (imin + 1)) (O.wmul wmin v)).bind fun acc =>
  (orUB (mem.load (inp + imax))).bind fun b =>
  orUB (mem.store (out + k) (O.wadd acc wmax b))

/-- `downsample(in, size, f, out)`, downsample.hpp 44-82, with the check of lines 11-16. -/
def downsample (inp size : ℕ) (f : ℚ) (out : ℕ) (mem : Mem V) : Except CallErr (Mem V) :=
  if ¬ (1 < f ∧ f ≤ A.fl size) then .error .valueError
  else (A.dsSize size f).bind fun n => forE (A.downsampleBody O inp size f out) n mem

end DArith

/-- State of the search, as `PgState` but with rational periods and samples of type `V`. -/
structure DState (V : Type*) where
  mem : Mem V
  per : Mem ℚ
  fb : Mem ℕ
  snr : Mem V
  ppos : ℕ
  spos : ℕ

/-- The `n` cells read by `snr1` from address `a`; every one must hold a value. -/
def loadRowD {V : Type*} [Inhabited V] (mem : Mem V) (a n : ℕ) : Except CallErr (ℕ → V) :=
  if (List.range n).all (fun i => (mem.load (a + i)).isSome) then
    .ok (fun i => if i < n then (mem.load (a + i)).getD default else default)
  else .error .undefinedBehaviour

/-- `snr2`, snr.hpp 58-65, on memory. An empty list of widths is undefined behaviour (snr.hpp 39). -/
def snr2D {V : Type*} [Inhabited V] (O : VOps V) (mem : Mem V) (block evalRows bins : ℕ) (widths : List ℕ)
    (rows size : ℕ) (f : ℚ) (out : ℕ) (snr : Mem V) : Except CallErr (Mem V) :=
  forE (fun i snr =>
    (loadRowD mem (block + i * bins) bins).bind fun row =>
    if widths = [] then .error .undefinedBehaviour
    else storeSeq (out + i * widths.length) (O.snr bins row widths rows size f) widths.length snr) evalRows snr

namespace DArith

variable (A : DArith) (a : DArgs) {V : Type*} [Inhabited V] (O : VOps V)

/-- Body of the FFA transform loop, periodogram.hpp 178-199, given `n`. The numbers of bins are stored as `uint32_t`. -/
def pgFold (idx : IdxRule) (L : PgLayout) (widths : List ℕ) (input ids n bins : ℕ) (st : DState V) :
    Except CallErr (DState V) :=
  let rows := n / bins
  (A.rowsEval a ids n bins).bind fun rowsEval =>
  (orUB (transformMem O.add idx rows bins input L.ffabuf L.ffaout st.mem)).bind fun mem =>
  (snr2D O mem L.ffaout rowsEval bins widths rows a.size (A.f a ids) st.spos st.snr).bind fun snr =>
  (storeSeq st.ppos (A.label a ids rows bins) rowsEval st.per).bind fun per =>
  (storeSeq st.ppos (fun _ => bins % 2 ^ 32) rowsEval st.fb).bind fun fb =>
  .ok { mem, per, fb, snr, ppos := st.ppos + rowsEval, spos := st.spos + rowsEval * widths.length }

/-- Body of the downsampling loop, periodogram.hpp 153-200. -/
def pgStage (idx : IdxRule) (L : PgLayout) (widths : List ℕ) (ids : ℕ) (st : DState V) :
    Except CallErr (DState V) :=
  (A.n a ids).bind fun n =>
  (if A.f a ids = 1 then .ok st
    else (A.downsample O L.data a.size (A.f a ids) L.input st.mem).map fun mem => { st with mem }).bind fun st =>
  (A.bstop a ids n).bind fun bstop =>
  forE (fun j => A.pgFold a O idx L widths (if A.f a ids = 1 then L.data else L.input) ids n (a.bmin + j))
    (bstop + 1 - a.bmin) st

/-- `periodogram`, periodogram.hpp 117-201, from the point where the buffers are allocated. -/
def search (idx : IdxRule) (L : PgLayout) (widths : List ℕ) (st : DState V) : Except CallErr (DState V) :=
  if ¬ A.Valid a then .error .valueError
  else (A.numDs a).bind fun nd => forE (A.pgStage a O idx L widths) nd st

/-- State at the start of the search: the data, three scratch buffers of `bufsize` elements (periodogram.hpp 144-150) and
output arrays for `length` trials. -/
def initState (data : List V) (bufsize length nw : ℕ) : DState V :=
  { mem := callMem data (bufsize + bufsize + bufsize), per := freshMem ℚ length, fb := freshMem ℕ length,
    snr := freshMem V (length * nw), ppos := 0, spos := 0 }

/-- Layout of the initial state. -/
def layout (N bufsize : ℕ) : PgLayout :=
  { data := 0, input := N, ffabuf := N + bufsize, ffaout := N + bufsize + bufsize }

/-- What the python caller gets. -/
def readOutput (length nw : ℕ) (st : DState V) : Except CallErr (List ℚ × List ℕ × List (List V)) :=
  (readArray st.per 0 length).bind fun periods =>
  (readArray st.fb 0 length).bind fun foldbins =>
  ((List.range length).mapM (fun j => readArray st.snr (j * nw) nw)).map fun snrs => (periods, foldbins, snrs)

/-- `periodogram` binding, python_bindings.cpp 180-209. -/
def binding (idx : IdxRule) (data : List V) (tsamp : ℚ) (widths : List ℕ) (pmin pmax : ℚ) (bmin bmax : ℕ) :
    Except CallErr (List ℚ × List ℕ × List (List V)) :=
  let a : DArgs := ⟨data.length, tsamp, pmin, pmax, bmin, bmax⟩
  (A.length a).bind fun length =>
  (A.dsSize a.size (A.dsIni a)).bind fun bufsize =>
  (A.search a O idx (layout data.length bufsize) widths (initState data bufsize length widths.length)).bind
    (readOutput length widths.length)

end DArith

/-- IEEE double precision, round to nearest even; `log` and `pow` are left to the library. -/
def ieeeDouble (log : ℚ → ℚ) (pow : ℚ → ℕ → ℚ) (fused : Bool) : DArith := ⟨rn 53, log, pow, fused⟩

end Verif.Model
