import Verif.Model.FileCache

/-
Specification of the cache of downloaded files.
-/

namespace DeepGNN.FileCache.Spec
open FileCache (Name Call)

/-- The entity tag, empty if there is none. -/
def tag (c : Call) : Name := c.etag.getD []

/-- The bytes the server sends. -/
def content (c : Call) : Bytes := c.chunks.flatten

/-- Digests have 64 characters, and those of the strings in `used` are different. -/
structure NoCollision (h : Name → Name) (used : List Name) : Prop where
  length : ∀ x, (h x).length = 64
  inj : ∀ x ∈ used, ∀ y ∈ used, h x = h y → x = y

/-- The call is for a url and a tag in `used`, and the server sends the file `remote url tag`. -/
def Serves (used : List Name) (remote : Name → Name → Bytes) (c : Call) : Prop :=
  c.url ∈ used ∧ tag c ∈ used ∧ content c = remote c.url (tag c)

/-- The process was killed, if at all, before the download was complete or just after it. -/
def InDownload (e : Call × Option Nat) : Prop := ∀ k, e.2 = some k → k ≤ (e.1.chunks.filter (· ≠ [])).length

end DeepGNN.FileCache.Spec
