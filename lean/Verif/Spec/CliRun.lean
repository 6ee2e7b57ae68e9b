import Verif.Model.CliRun

/-!
# What the menus of the command line tool should do (C87)

Each relation says which lines are typed for an answer: lines that answer nothing may come first, then the line that does.
-/
set_option autoImplicit false
namespace Verif.Spec.CliRun
open Verif.Py Verif.Model.CliRun

/-- An entry of a menu: mistyped lines, none of which is an entry, the letter `q` or the letter `i`, and then the entry. -/
def Picked (keys : List Str) (key : Str) (typed : List Str) : Prop :=
  ∃ junk, typed = junk ++ [key] ∧ key ∈ keys ∧ ∀ l ∈ junk, l ∉ keys ∧ l ≠ "q".toList ∧ l ≠ "i".toList

/-- A tag: lines that are no tag of the collection when put in upper case, and then one that is. -/
def Tagged (upper : Str → Str) (tags : List Str) (t : Str) (typed : List Str) : Prop :=
  ∃ junk l, typed = junk ++ [l] ∧ upper l = t ∧ t ∈ tags ∧ ∀ l ∈ junk, upper l ∉ tags

/-- More tags, up to an empty line. -/
inductive MoreTagged (upper : Str → Str) (tags : List Str) : List Str → List Str → Prop where
  | stop (l : Str) : upper l = [] → MoreTagged upper tags [] [l]
  | skip (ts typed : List Str) (l : Str) : upper l ≠ [] → upper l ∉ tags → MoreTagged upper tags ts typed → MoreTagged upper tags ts (l :: typed)
  | tag (t : Str) (ts typed : List Str) (l : Str) : upper l = t → t ≠ [] → t ∈ tags → MoreTagged upper tags ts typed → MoreTagged upper tags (t :: ts) (l :: typed)

/-- The lines typed for a network: the number in the menu and the tags. -/
def NetTyped (upper : Str → Str) (tags : List Str) : Net → List Str → Prop
  | .oneMode t, typed => ∃ a b, typed = a ++ b ∧ Picked (["1", "2", "3", "4", "5", "6"].map String.toList) "1".toList a ∧ Tagged upper tags t b
  | .twoMode t u, typed => ∃ a b c, typed = a ++ b ++ c ∧ Picked (["1", "2", "3", "4", "5", "6"].map String.toList) "2".toList a ∧
      Tagged upper tags t b ∧ Tagged upper tags u c
  | .multiMode ts, typed => ∃ t us a b c, ts = t :: us ∧ typed = a ++ b ++ c ∧ Picked (["1", "2", "3", "4", "5", "6"].map String.toList) "3".toList a ∧
      Tagged upper tags t b ∧ MoreTagged upper tags us c
  | .citation, typed => Picked (["1", "2", "3", "4", "5", "6"].map String.toList) "4".toList typed
  | .coCitation, typed => Picked (["1", "2", "3", "4", "5", "6"].map String.toList) "5".toList typed
  | .coAuthor, typed => Picked (["1", "2", "3", "4", "5", "6"].map String.toList) "6".toList typed

/-- A line that means yes or no: `y`, `n` or nothing, which is yes. -/
def Means (upper : Str → Str) (b : Bool) (l : Str) : Prop :=
  if b then upper l = "Y".toList ∨ upper l = [] else upper l = "N".toList

/-- An answer to a question: lines that are neither, and then the answer. -/
def Answered (upper : Str → Str) (b : Bool) (typed : List Str) : Prop :=
  ∃ junk l, typed = junk ++ [l] ∧ Means upper b l ∧ ∀ l ∈ junk, ¬ Means upper true l ∧ ¬ Means upper false l

/-- The lines typed to name a file, when no name was given on the command line: names until one is not empty and either new or confirmed. -/
inductive NameAsked (upper : Str → Str) (there : Str → Bool) (suffix : Str) : Str → List Str → Prop where
  | empty (f l : Str) (typed : List Str) : l ++ suffix = [] → NameAsked upper there suffix f typed → NameAsked upper there suffix f (l :: typed)
  | new (f l : Str) : l ++ suffix = f → f ≠ [] → there f = false → NameAsked upper there suffix f [l]
  | agreed (f l : Str) (a : List Str) : l ++ suffix = f → f ≠ [] → there f = true → Answered upper true a → NameAsked upper there suffix f (l :: a)
  | refused (f l : Str) (a typed : List Str) : l ++ suffix ≠ [] → there (l ++ suffix) = true → Answered upper false a → NameAsked upper there suffix f typed →
      NameAsked upper there suffix f (l :: (a ++ typed))

/-- The lines typed to name a file: none when a name was given on the command line. -/
def NameTyped (upper : Str → Str) (there : Str → Bool) (name suffix f : Str) (typed : List Str) : Prop :=
  if name = [] then NameAsked upper there suffix f typed else typed = [] ∧ f = name ++ suffix

/-- The lines typed for a name `l` of the two files of a graph: a file of that very name may have to be confirmed first, if names are checked. -/
def Sure (upper : Str → Str) (there : Str → Bool) (check : Bool) (l : Str) (typed : List Str) : Prop :=
  l ≠ [] ∧ ∃ a, typed = l :: a ∧ (¬ (there l = true ∧ check = true) ∧ a = [] ∨ there l = true ∧ check = true ∧ Answered upper true a)

/-- The lines typed to name the two files of a graph, and whether existing ones are to be overwritten. -/
inductive GraphAsked (upper : Str → Str) (there clash : Str → Bool) : Bool → Str → Bool → List Str → Prop where
  | empty (check : Bool) (f : Str) (o : Bool) (typed : List Str) : GraphAsked upper there clash true f o typed → GraphAsked upper there clash check f o ([] :: typed)
  | declined (check : Bool) (f l : Str) (o : Bool) (a typed : List Str) : l ≠ [] → there l = true → check = true → Answered upper false a →
      GraphAsked upper there clash true f o typed → GraphAsked upper there clash check f o (l :: (a ++ typed))
  | new (check : Bool) (f : Str) (a : List Str) : Sure upper there check f a → clash f = false → GraphAsked upper there clash check f false a
  | agreed (check : Bool) (f : Str) (a b : List Str) : Sure upper there check f a → clash f = true → Answered upper true b →
      GraphAsked upper there clash check f true (a ++ b)
  | refused (check : Bool) (f l : Str) (o : Bool) (a b typed : List Str) : Sure upper there check l a → clash l = true → Answered upper false b →
      GraphAsked upper there clash false f o typed → GraphAsked upper there clash check f o (a ++ b ++ typed)

/-- The lines typed to name the two files of a graph: with a name given on the command line none, and existing files are overwritten. -/
def GraphTyped (upper : Str → Str) (there clash : Str → Bool) (name f : Str) (o : Bool) (typed : List Str) : Prop :=
  if name = [] then GraphAsked upper there clash false f o typed else typed = [] ∧ f = name ∧ o = clash name

/-- The lines typed for a job, and whether a network is made after it. `Named suffix f` says which lines name the file `f` (C81). -/
def JobTyped (upper : Str → Str) (Named : Str → Str → List Str → Prop) (manual : Str) : Job → Bool → List Str → Prop
  | .nothing, net, typed => net = true ∧ Picked (["1", "2", "3", "4", "5", "6", "7"].map String.toList) "1".toList typed
  | .writeFile f, net, typed => ∃ a b, typed = a ++ b ∧
      Picked (["1", "2", "3", "4", "5", "6", "7"].map String.toList) (if net then "3".toList else "2".toList) a ∧ Named ".txt".toList f b
  | .writeCSV f, net, typed => ∃ a b, typed = a ++ b ∧
      Picked (["1", "2", "3", "4", "5", "6", "7"].map String.toList) (if net then "5".toList else "4".toList) a ∧ Named ".csv".toList f b
  | .citations journals f, net, typed => net = false ∧ ∃ a b c, typed = a ++ b ++ c ∧
      Picked (["1", "2", "3", "4", "5", "6", "7"].map String.toList) "6".toList a ∧ Answered upper journals b ∧ Named ".csv".toList f c
  | .review db, net, typed => net = false ∧ ∃ a l, typed = a ++ [l] ∧
      Picked (["1", "2", "3", "4", "5", "6", "7"].map String.toList) "7".toList a ∧ (l = [] ∧ db = manual ∨ l ≠ [] ∧ db = l)

/-- The lines typed for an output, after looking at the graph any number of times. -/
def OutTyped (Named : Str → Str → List Str → Prop) (NamedBoth : Str → Bool → List Str → Prop) (contour : Bool) (o : Output) (typed : List Str) : Prop :=
  ∃ keys, keys = (if contour then ["0".toList] else []) ++ ["1", "2", "3", "4"].map String.toList ∧
  ∃ (shows : List (List Str)) (a b : List Str), typed = shows.flatten ++ a ++ b ∧ (∀ s ∈ shows, contour = true ∧ Picked keys "0".toList s) ∧
    match o with
    | .both f over => Picked keys "1".toList a ∧ NamedBoth f over b
    | .edges f => Picked keys "2".toList a ∧ Named ".csv".toList f b
    | .nodes f => Picked keys "3".toList a ∧ Named ".csv".toList f b
    | .graphml f => Picked keys "4".toList a ∧ Named ".graphml".toList f b

end Verif.Spec.CliRun
