import Verif.Model.Files

namespace DeepGNN.Spec

/-- A way to assign files to workers, given what the file system lists to each of them, divides the files: every worker
gets an assignment, the assignments are pairwise disjoint and together they are the files. -/
structure SplitsFiles (assign : List Files.Name → Nat → Nat → Option (List Files.Name)) (files : List Files.Name)
    (listing : Nat → List Files.Name) (workers : Nat) : Prop where
  assigned : ∀ w < workers, ∃ fs, assign (listing w) w workers = some fs ∧ fs.Nodup
  disjoint : ∀ v < workers, ∀ w < workers, ∀ a b, assign (listing v) v workers = some a → assign (listing w) w workers = some b →
    ∀ f, f ∈ a → f ∈ b → v = w
  covers : ∀ f, f ∈ files ↔ ∃ w < workers, ∃ fs, assign (listing w) w workers = some fs ∧ f ∈ fs

end DeepGNN.Spec
