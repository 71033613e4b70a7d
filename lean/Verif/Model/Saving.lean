import Verif.Model.Products

/-!
# Model of saving candidates with plots that may fail

`riptide/pipeline/pipeline.py` 41-53 and 368-380, `riptide/candidate.py` 132-139, 167-201, 204-210 and 261-281, and `multiprocessing.Pool.map` of the
standard library (python 3.11). Simplifications: as in `Verif.Model.Products`, and drawing fails only where data or metadata do not have
the form that is needed (matplotlib itself does not fail); `iso` stands for the conversion of `mjd` by `astropy.time.Time`.
-/

namespace Verif.Model

/-! ## Plotting -/

/-- A `SkyCoord`; other objects have no attribute `ra`. -/
def pySky : PyVal → Except PyErr Unit
  | .sky _ _ => .ok ()
  | _ => .error .attributeError

/-- `plot_table(params, tsmeta)`, candidate.py 167-201: the coordinates, then the date, then the text of the entries; `'{:s}'` is an error for `None`. -/
def plotTable (iso : PyVal → Except PyErr Unit) (md : MetaDict) : Except PyErr Unit :=
  (metaItem pySky md "skycoord").bind fun _ =>
  (metaItem iso md "mjd").bind fun _ =>
  (metaItem pyStr md "source_name").map fun _ => ()

/-- `plot_dm_curve(dm, snr)`, candidate.py 204-210: `min` of an empty array is an error. -/
def plotDmCurve {K : Type*} : List (K × K) → Except PyErr Unit
  | [] => .error .valueError
  | _ :: _ => .ok ()

/-- `Candidate.savefig`, candidate.py 132-139 and 261-281: `md` are the metadata of the candidate. -/
noncomputable def plotCandidate (iso : PyVal → Except PyErr Unit) (md : MetaDict) (x : CandObj ℝ) : Except PyErr Unit :=
  (metaItem pyReal md "tobs").bind fun _ =>
  (plotSubints x.subints).bind fun _ =>
  (plotTable iso md).bind fun _ =>
  plotDmCurve x.dmCurve

/-! ## The pool -/

/-- `Pool.map(func, iterable)` without `chunksize`: the size of the batches for `n` arguments. -/
def mapChunk (n processes : ℕ) : ℕ := n / (processes * 4) + if n % (processes * 4) = 0 then 0 else 1

/-- `CandidateWriter.__call__((rank, cand))`, pipeline.py 41-53: the files that are written, and the exception raised, if any. The plot is the last
statement; nothing is written if it cannot be made. -/
def writerCall (json : PCandidate ℝ (CandObj ℝ) → List Char) (plot : Option (PCandidate ℝ (CandObj ℝ) → Except PyErr (List Char)))
    (x : PCandidate ℝ (CandObj ℝ) × ℕ) : List (List Char × List Char) × Option PyErr :=
  let saved := (candidateFileName x.2 ".json".toList, json x.1)
  match plot with
  | none => ([saved], none)
  | some f =>
    match f x.1 with
    | .ok image => ([saved, (candidateFileName x.2 ".png".toList, image)], none)
    | .error e => ([saved], some e)

/-- `list(map(f, batch))` in a worker process, where `f` gives what it writes and the exception it raises. -/
def batchRun {β ω : Type*} (f : β → List ω × Option PyErr) : List β → List ω × Option PyErr
  | [] => ([], none)
  | x :: l =>
    match (f x).2 with
    | some e => ((f x).1, some e)
    | none => ((f x).1 ++ (batchRun f l).1, (batchRun f l).2)

/-- What the batches of `pool.map(writer, arglist)` write and raise, pipeline.py 370-373. -/
def writerRuns (json : PCandidate ℝ (CandObj ℝ) → List Char) (plot : Option (PCandidate ℝ (CandObj ℝ) → Except PyErr (List Char)))
    (processes : ℕ) (cands : List (PCandidate ℝ (CandObj ℝ))) : List (List (List Char × List Char) × Option PyErr) :=
  (batches (mapChunk cands.length processes) cands.zipIdx).map (batchRun (writerCall json plot))

/-- `Pipeline.save_products(outdir)`, lines 336-380, which leaves the directory `d'` and returns or raises `res`. `pool.map` waits for all batches
and then raises an exception that one of them has raised; the processes write in some order. -/
def SavesPlots (json : PCandidate ℝ (CandObj ℝ) → List Char) (plot : Option (PCandidate ℝ (CandObj ℝ) → Except PyErr (List Char)))
    (processes : ℕ) (st : PipeState ℝ (CandObj ℝ)) (d d' : OutDir) (res : Except PyErr Unit) : Prop :=
  if st.peaks.length = 0 then d' = d ∧ res = .ok ()
  else ∃ tables order, tableFiles st = .ok tables ∧ order.Perm ((writerRuns json plot processes st.candidates).map Prod.fst).flatten ∧
    d' = (d.writeAll tables).writeAll order ∧
    ((res = .ok () ∧ ∀ r ∈ writerRuns json plot processes st.candidates, r.2 = none) ∨
      ∃ e, res = .error e ∧ ∃ r ∈ writerRuns json plot processes st.candidates, r.2 = some e)

end Verif.Model
