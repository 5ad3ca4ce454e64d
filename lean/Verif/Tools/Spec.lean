import Verif.Tools.Model
import Mathlib.Data.List.Dedup

/-!
# Vocabulary for the properties of the tools
-/

namespace Verif.Tools

/-- The minimiser that a name stands for, if there is one and it is installed. -/
def meaning (iminuit : Bool) (name : String) : Option Min :=
  if name = "scipy" then some .scipy else if (name = "minuit" ∨ name = "iminuit") ∧ iminuit = true then some .minuit else none

/-- The last one that was asked for successfully. -/
def lastAsked (iminuit : Bool) (names : List String) : Option Min := (names.filterMap (meaning iminuit)).getLast?

/-- How many different other messages came after the last `k` in the history `l`, the latest call last. -/
def since {κ : Type} [DecidableEq κ] (k : κ) (l : List κ) : ℕ := (l.reverse.takeWhile (· ≠ k)).dedup.length

/-- The warnings of a function and of those it calls whose own function returns; `ok` says whether the function itself does. -/
def kept : Trace → Bool → List String
  | .done, _ => []
  | .warn w rest, ok => (if ok then [w] else []) ++ kept rest ok
  | .call body o rest, ok => kept body o ++ kept rest ok

/-- All warnings. -/
def all : Trace → List String
  | .done => []
  | .warn w rest => w :: all rest
  | .call body _ rest => all body ++ all rest

/-- All functions return. -/
def Returns : Trace → Prop
  | .done => True
  | .warn _ rest => Returns rest
  | .call body ok rest => Returns body ∧ ok = true ∧ Returns rest

/-- What a place on the net knows: the text of a successful reply, nothing otherwise. -/
def known (net : String → Reply) (url id : String) : Option String :=
  match net (url ++ id) with
  | .answer s t => if 200 ≤ s ∧ s ≤ 299 ∧ t ≠ "" then some t else none
  | _ => none

def inspireArxiv := "https://inspirehep.net/api/arxiv/"
def inspireDoi := "https://inspirehep.net/api/doi/"
def doiOrg := "https://doi.org/"
def zenodoOrg := "https://zenodo.org/api/records/"

/-- The connection is never lost. -/
def Online (net : String → Reply) : Prop := ∀ u, net u ≠ .noConnection

/-- `net'` gives the replies of `net` as far as there are any. -/
def Extends (net net' : String → Reply) : Prop := ∀ u, net u ≠ .noConnection → net' u = net u

/-- Each list begins with that of `a`. -/
def Entries.Prefix (a b : Entries) : Prop := a.inspire <+: b.inspire ∧ a.doi <+: b.doi ∧ a.zenodo <+: b.zenodo

end Verif.Tools
