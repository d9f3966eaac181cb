import Verif.Classes.Model
import Verif.Atom.Spec

/-!
# What definitions of classes mean

Members of a class, and what the use of a template stands for: the members of the template, with the members of its
arguments in the places marked `:~`. Nothing here is taken from the way the code keeps its arguments.
-/
namespace Verif.Classes
open Verif.Source Verif.Macro

/-- The types that have a name of their own. -/
def builtin : List (Name × Read) :=
  [([], .any), ("nb".toList, .number), ("ts".toList, .timestamp), ("us".toList, .duration), ("bl".toList, .boolean),
    ("st".toList, .string), ("did".toList, .device), ("fid".toList, .function), ("nid".toList, .node),
    ("xpr".toList, .expression), ("type".toList, .cls)]

/-- A line that defines a class under the name as written. -/
def Defines (root : List Tree) (cmd : Name) : Prop :=
  ∃ t ∈ root, t.kind = .directive ∧ t.cmd = "!class".toList ∧ ∃ s more, t.args = s :: more ∧ s.cmd = cmd

/-- What is written for one member: `name:type`, `name:[]` or `name:[::class]`. -/
inductive Leaf (root : List Tree) : Tree → Member → Prop
  | builtin {l tl as name type r} : (type, r) ∈ builtin → ':' ∉ name →
      Leaf root (.mk .atom l (name ++ ':' :: type) tl as) ⟨r, name, [], .cls⟩
  | object {l tl as name type} : (∀ x ∈ builtin, x.1 ≠ type) → type ≠ ['~'] → ':' ∉ name →
      Leaf root (.mk .atom l (name ++ ':' :: type) tl as) ⟨.expression, name, type, .cls⟩
  | set {name tl} : Leaf root (.mk .set (name ++ [':']) [] tl []) ⟨.set, name, [], .cls⟩
  | sets {name tl l' tl' as' type} : Defines root (type ++ "[]".toList) → ¬ Defines root type →
      Leaf root (.mk .set (name ++ [':']) [] tl [.mk .atom l' (':' :: ':' :: type) tl' as']) ⟨.set, name, type, .set⟩
  | objects {name tl l' tl' as' type} : ¬ Defines root (type ++ "[]".toList) → type ≠ "type".toList → type ≠ ['~'] →
      Leaf root (.mk .set (name ++ [':']) [] tl [.mk .atom l' (':' :: ':' :: type) tl' as']) ⟨.set, name, type, .expression⟩
  | types {name tl l' tl' as'} : ¬ Defines root ("type".toList ++ "[]".toList) →
      Leaf root (.mk .set (name ++ [':']) [] tl [.mk .atom l' (':' :: ':' :: "type".toList) tl' as'])
        ⟨.set, name, "type".toList, .dcls⟩

/-- A member as meant: a simple one, or a set with members of its own. -/
inductive M
  | leaf (m : Member)
  | sub (name : Name) (ms : List M)

/-- `Means root tpl inst us ts vs`: written one after the other, `ts` stand for the members `vs` (a list for each), with
`us` in the places marked `:~`. In an argument (`inst`) a template stands for a set with its members, elsewhere for its
members. -/
inductive Means (root : List Tree) (tpl : Templates) : Bool → List (List M) → List Tree → List (List M) → Prop
  | done {inst} : Means root tpl inst [] [] []
  | nothing {inst us ts vs l tl as} : Means root tpl inst us ts vs →
      Means root tpl inst us (.mk .atom l "nil".toList tl as :: ts) ([] :: vs)
  | leaf {inst us ts vs t m} : Leaf root t m → Means root tpl inst us ts vs →
      Means root tpl inst us (t :: ts) ([.leaf m] :: vs)
  | place {inst u us ts vs l tl as} : Means root tpl inst us ts vs →
      Means root tpl inst (u :: us) (.mk .atom l ":~".toList tl as :: ts) (u :: vs)
  | several {inst us us' ts vs ws l c tl as} : Means root tpl inst us as ws → Means root tpl inst us' ts vs →
      Means root tpl inst (us ++ us') (.mk .development l c tl as :: ts) (ws.flatten :: vs)
  | base {us us' ts vs ws xs l c tl as body} : tpl c = some body → Means root tpl true us as ws →
      Means root tpl false ws body.args xs → Means root tpl false us' ts vs →
      Means root tpl false (us ++ us') (.mk .struct l c tl as :: ts) (xs.flatten :: vs)
  | inst {us us' ts vs ws xs name c tl as body} : tpl c = some body → Means root tpl true us as ws →
      Means root tpl true ws body.args xs → Means root tpl true us' ts vs →
      Means root tpl true (us ++ us') (.mk .struct (name ++ [':']) c tl as :: ts) ([.sub name xs.flatten] :: vs)

mutual
/-- The places marked `:~`. -/
def places : Tree → Nat
  | .mk .atom _ c _ _ => if c = ":~".toList then 1 else 0
  | .mk .struct _ _ _ as => placesEach as
  | .mk .development _ _ _ as => placesEach as
  | .mk .set _ _ _ as => placesEach as
  | _ => 0
def placesEach : List Tree → Nat
  | [] => 0
  | t :: ts => places t + placesEach ts
end

/-- Where arguments of templates have places themselves: only in the last argument, and not where the template stands for
a set. -/
inductive Good (tpl : Templates) : Bool → List Tree → Prop
  | done {inst} : Good tpl inst []
  | simple {inst t ts} : t.kind = .atom ∨ t.kind = .set → Good tpl inst ts → Good tpl inst (t :: ts)
  | several {inst ts l c tl as} : Good tpl inst as → Good tpl inst ts → Good tpl inst (.mk .development l c tl as :: ts)
  | base {ts l c tl as body} : tpl c = some body → placesEach as.dropLast = 0 → Good tpl true as →
      Good tpl false body.args → Good tpl false ts → Good tpl false (.mk .struct l c tl as :: ts)
  | inst {ts l c tl as body n} : tpl c = some body → body.cmd = n ++ "[]".toList → placesEach as = 0 → Good tpl true as →
      Good tpl true body.args → Good tpl true ts → Good tpl true (.mk .struct l c tl as :: ts)

/-- The members found in the metadata are those meant; sets with members of their own by the classes they name. -/
inductive Shown (cl : Name → Option Class) : List Member → List M → Prop
  | done : Shown cl [] []
  | leaf {m ms xs} : Shown cl ms xs → Shown cl (m :: ms) (.leaf m :: xs)
  | sub {name n c op ms xs ys} : cl n = some c → c.name = n →
      Atom.load c.atom = some (.struct_ .sset op (BitVec.ofNat 8 c.members.length)) → Shown cl c.members ys → Shown cl ms xs →
      Shown cl (⟨.set, name, n, .cls⟩ :: ms) (.sub name ys :: xs)

/-! ## Files -/

/-- The lines of a file, by what they define. -/
inductive Line
  | template (name : Name) (set : Bool) (args : List Tree)
  | cls (name : Name) (set : Bool) (args : List Tree)
  | op (name : Name) (args : List Tree) (type : Name)
  | fn (name : Name) (args : List Tree)
  | other (t : Tree)

/-- The name as written. -/
def written (name : Name) (set : Bool) : Name := if set then name ++ "[]".toList else name

/-- The line of text. -/
def Line.tree : Line → Tree
  | .template n b as => .mk .directive [] "!class".toList [] [.mk .struct [] (written n b) [] as]
  | .cls n b as => .mk .directive [] "!class".toList [] [.mk .struct [] (written n b) [] as]
  | .op n as ty => .mk .directive [] "!op".toList [] [.mk .struct [] n ty as]
  | .fn n as => .mk .directive [] "!dfn".toList [] [.mk .struct [] n [] as]
  | .other t => t

/-- Templates have places, other definitions none; names of classes have no bracket; other lines define nothing. -/
def Line.Proper : Line → Prop
  | .template n _ as => '[' ∉ n ∧ 0 < placesEach as
  | .cls n b as => '[' ∉ n ∧ placesEach as = 0 ∧ (b = false → as ≠ [])
  | .op _ as _ => placesEach as = 0
  | .fn _ _ => True
  | .other t => t.kind = .directive →
      t.args ≠ [] ∧ t.cmd ≠ "!class".toList ∧ t.cmd ≠ "!op".toList ∧ t.cmd ≠ "!dfn".toList

/-- The templates after a line: the last one of a name counts. -/
def Line.templates (tpl : Templates) : Line → Templates
  | .template n b as => Macro.set tpl n (some (.mk .struct [] (written n b) [] as))
  | _ => tpl

/-- The templates defined by lines. -/
def templatesOf (ls : List Line) : Templates := ls.foldl Line.templates fun _ => none

/-- The names other than those of templates. -/
def Line.name : Line → List Name
  | .cls n _ _ => [n]
  | .op n _ _ => [n]
  | .fn n _ => [n]
  | _ => []

/-- All names are different, and none is that of a template that is a set, followed by a number; the name of such a
template does not end in a digit. -/
def Distinct (ls : List Line) : Prop :=
  ("xpr".toList :: "type".toList :: ls.flatMap Line.name).Nodup ∧
  ∀ n as, Line.template n true as ∈ ls →
    (∀ c, n.getLast? = some c → c.isDigit = false) ∧
    ∀ m ∈ "xpr".toList :: "type".toList :: ls.flatMap Line.name, ∀ i : Nat, m ≠ n ++ (toString i).toList

end Verif.Classes
