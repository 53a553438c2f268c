import Verif.Props.C73Graph

namespace DeepGNN

open Datasets Samplers Spec

/-- Batches of two, two epochs, file names given, other arguments by default. -/
def C73_call : Args := fun
  | .batchSize => some 2 | .epochs => some 2 | .sampleFiles => some 7 | .filename => some 7 | .sampleFile => some 7
  | .storeName => some 0 | .edgeType => some 3 | .first => some 0 | .last => some 7 | .backfillId => some (-1)
  | .nodeTypes => some 0 | .edgeTypes => some 0 | _ => none

/-- Three files. -/
def C73_files : List Files.Name := [[97], [98], [99]]

def C73_content : Files.Name → List Int
  | [97] => [1, 2, 3]
  | [98] => [4]
  | _ => [5, 6]

def C73_lines : Files.Name → Text.Bytes
  | [97] => [65, 10, 66, 10, 67]
  | [98] => [68, 10]
  | [99] => [69, 10, 70, 10]
  | _ => [71, 10, 72]

/-- Whether the batches of the loader process `i` out of `n` of the training worker `w` out of `workers` are `out`. -/
def C73_run {β σ : Type} [DecidableEq β] (sig : Sig) (workers n w i : Nat) (call : Args)
    (iter : (Key → Int) → Option ((σ → Option (β × σ)) × σ)) (out : List β) : Bool :=
  match (argsOf (some 5) call sig workers n w i).bind iter with
  | none => false
  | some p => checkYields p.1 p.2 out

example : Asked C73_call 2 2 false ∧ Ordered C73_call 2 ∧ (∀ f ∈ C73_files, C73_content f ≠ []) ∧ C73_files.Nodup := by
  refine ⟨⟨rfl, rfl, rfl, rfl, rfl⟩, .inl rfl, by decide, by decide⟩

/-- Node ids: two training workers, two loader processes each. -/
example : (let run := (fun w i out => C73_run fileNodeSig 2 2 w i C73_call
      (fun a => (fileNodes C73_files C73_content (fun _ => List.range) a).map fun p => (p.1.next, p.2)) out);
    run 0 0 [[1, 2], [6, 1], [5, 6]] && run 0 1 [[3, 5], [2, 3]] && run 1 0 [[4, 4]] && run 1 1 []) = true := by
  decide +kernel

/-- Edges: one training worker, two loader processes. -/
example : (let run := (fun w i out => C73_run fileEdgeSig 1 2 w i C73_call
      (fun a => (fileEdges () [[97]] (fun _ => [(1, 2, ()), (3, 4, ()), (5, 6, ())]) (fun _ => List.range) a).map fun p => (p.1.next, p.2)) out);
    run 0 0 [[((1, 2, 3), ()), ((3, 4, 3), ())], [((3, 4, 3), ()), ((5, 6, 3), ())]] &&
      run 0 1 [[((5, 6, 3), ()), ((1, 2, 3), ())]]) = true := by
  decide +kernel

/-- A file of tuples: the second of two training workers has a padded batch. -/
example : (let run := (fun w i out => C73_run fileTupleSig 2 0 w i (C73_call.set .epochs 1)
      (fun a => (fileTuples some [(1, 0), (2, 0), (3, 0)] (fun _ => List.range) a).map fun p => (p.1.next, p.2)) out);
    run 0 0 [[(1, 0), (3, 0)]] && run 1 0 [[(2, 0), (-1, -1)]]) = true ∧
    [(1, 0), (2, 0), (3, 0)].mapM (some : Int × Int → Option (Int × Int)) = some [(1, 0), (2, 0), (3, 0)] := by
  decide +kernel

/-- Tuples with parts. -/
example : (let run := (fun w i out => C73_run fileTupleV2Sig 2 0 w i (C73_call.set .epochs 1)
      (fun a => (fileTuplesV2 id some [[1, 10], [2, 20], [3, 30]] (fun _ => List.range) a).map fun p => (p.1.next, p.2)) out);
    run 0 0 [[[1, 10], [3, 30]]] && run 1 0 [[[2, 20], [-1, -1]]]) = true := by
  decide +kernel

/-- Ranges of ids: two training workers. -/
example : (let run := (fun w i out => C73_run rangeSig 2 0 w i C73_call (fun a => (rangeNodes a).map fun p => (p.1.next, p.2)) out);
    run 0 0 [[0, 1], [4, 5]] && run 1 0 [[2, 3], [6, -1]]) = true := by
  decide +kernel

/-- The graph has nine nodes: two training workers with two loader processes each see three batches for the two epochs. -/
example : (let run := (fun w i out => C73_run geNodeSig 2 2 w i C73_call (fun a => some (geNext (fun c => [w, i, c]), geCount 9 a)) out);
    run 1 0 [[1, 0, 2], [1, 0, 1], [1, 0, 0]] && run 0 1 [[0, 1, 2], [0, 1, 1], [0, 1, 0]]) = true := by
  decide +kernel

/-- Text files: two training workers with two loader processes each, one epoch. -/
example : (let run := (fun w i out => C73_run textSig 2 2 w i (C73_call.set .epochs 1)
      (fun a => (textStart [[100], [99], [97], [98]] C73_lines (fun _ l => l) 3 0 a).map fun s => (textIter (fun _ l => l) a, s)) out);
    run 0 0 [[[65], [66]], [[67], []]] && run 0 1 [[[68], []]] && run 1 0 [[[69], [70]]] && run 1 1 [[[71], [72]]]) = true := by
  decide +kernel

/-- The number of epochs of a dataset does not reach a sampler of CSV rows. -/
theorem C73_csv_epochs_refuted : C73_call .epochs = some 2 ∧
    C73_run csvSig 1 0 0 0 C73_call (fun a => some ((csvNodes [1, 2, 3] a).next, 0)) [[1, 2], [3]] = true := by
  decide +kernel

/-- Two training workers both see all CSV rows. -/
theorem C73_csv_workers_refuted :
    C73_run csvSig 2 0 0 0 C73_call (fun a => some ((csvNodes [1, 2, 3] a).next, 0)) [[1, 2], [3]] = true ∧
    C73_run csvSig 2 0 1 0 C73_call (fun a => some ((csvNodes [1, 2, 3] a).next, 0)) [[1, 2], [3]] = true := by
  decide +kernel

/-- A sampler over an empty text file yields a batch of blank lines; so does one with `drop_last` over a file with fewer
lines than a batch. -/
theorem C73_text_blank_refuted :
    C73_run textSig 1 0 0 0 C73_call (fun a => (textStart [[97]] (fun _ => []) (fun _ l => l) 9 0 a).map fun s =>
      (textIter (fun _ l => l) a, s)) [[[], []]] = true ∧
    C73_run textSig 1 0 0 0 ((C73_call.set .dropLast 1).set .epochs 1) (fun a => (textStart [[97]] (fun _ => [65, 10]) (fun _ l => l) 9 0 a).map fun s =>
      (textIter (fun _ l => l) a, s)) [[[], []]] = true := by
  decide +kernel

/-- Training workers do not see equally many batches. -/
theorem C73_uneven_refuted :
    C73_run fileTupleSig 2 0 0 0 ((C73_call.set .epochs 1).set .batchSize 1)
      (fun a => (fileTuples some [(1, 0), (2, 0), (3, 0)] (fun _ => List.range) a).map fun p => (p.1.next, p.2))
      [[(1, 0)], [(3, 0)]] = true ∧
    C73_run fileTupleSig 2 0 1 0 ((C73_call.set .epochs 1).set .batchSize 1)
      (fun a => (fileTuples some [(1, 0), (2, 0), (3, 0)] (fun _ => List.range) a).map fun p => (p.1.next, p.2))
      [[(2, 0)]] = true := by
  decide +kernel

end DeepGNN
