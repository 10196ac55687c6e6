import Mathlib.Algebra.Order.Floor.Ring
import Mathlib.Algebra.Order.Round

/-!
Model of `ParticleReader` (src/nektar_interface/solver_base/particle_reader.cpp, include/nektar_interface/solver_base/particle_reader.hpp).

A string is a list of characters; `boost::to_upper` is that of the classic locale. An XML document is a tree; the functions of TinyXML that are used are
written out below. A `std::map` is a function to `Option`. `none` as a result is an exception or a failed assertion (the state is then not used) or, where
noted, undefined behaviour. External functions (the expression interpreter, `ParseUtils::GenerateVector` and `GenerateSeqVector`,
`boost::lexical_cast<bool>`) are arguments.
-/

namespace Verif.Model.ParticleReader

/-- `std::string`, particle_reader.cpp:40-63. -/
abbrev Str := List Char

/-! ### `std::string` -/

/-- `std::string::npos`. particle_reader.cpp:40-63. -/
def npos : ℕ := 2 ^ 64 - 1

/-- Sums and differences of `std::size_t`. particle_reader.cpp:40-63. -/
def wrap (a : ℤ) : ℕ := (a % 2 ^ 64).toNat

/-- `find_first_of` for one character. Called in particle_reader.cpp:40-63. -/
def findFirstOf (s : Str) (c : Char) : ℕ := (s.findIdx? (· == c)).getD npos

/-- `find_first_not_of` for one character. Called in particle_reader.cpp:40-63. -/
def findFirstNotOf (s : Str) (c : Char) : ℕ := (s.findIdx? (· != c)).getD npos

/-- `find_last_of` for one character: the position of the first match from the end. Called in particle_reader.cpp:40-63. -/
def findLastOf (s : Str) (c : Char) : ℕ := ((s.reverse.findIdx? (· == c)).map fun i => s.length - 1 - i).getD npos

/-- `find_last_not_of` for one character. Called in particle_reader.cpp:40-63. -/
def findLastNotOf (s : Str) (c : Char) : ℕ := ((s.reverse.findIdx? (· != c)).map fun i => s.length - 1 - i).getD npos

/-- `substr(pos, len)`: throws `std::out_of_range` if `pos > size()`. Called in particle_reader.cpp:40-63. -/
def substr (s : Str) (pos : ℕ) (len : ℕ := npos) : Option Str := if pos > s.length then none else some ((s.drop pos).take len)

/-- `boost::to_upper_copy`. Called in particle_reader.cpp:102, 126, 138, 195. -/
def upper (s : Str) : Str := s.map Char.toUpper

/-- The white space of `std::isspace`. For `std::stoi`, particle_reader.cpp:482, 533. -/
def isSpace (c : Char) : Bool := c = ' ' || c = '\t' || c = '\n' || c = Char.ofNat 11 || c = Char.ofNat 12 || c = '\r'

/-- The value of a list of decimal digits. For `std::stoi`, particle_reader.cpp:482, 533. -/
def digitsVal (s : Str) : ℕ := s.foldl (fun a c => 10 * a + (c.toNat - '0'.toNat)) 0

/-- `std::stoi`: white space, an optional sign, digits; what follows is ignored. Throws without digits and if the value is not an `int`. Called in particle_reader.cpp:482, 533, 670-674, 722. -/
def stoi (s : Str) : Option ℤ :=
  let t := s.dropWhile isSpace
  let (neg, u) := match t with
    | '-' :: u => (true, u)
    | '+' :: u => (false, u)
    | u => (false, u)
  let d := u.takeWhile Char.isDigit
  if d = [] then none
  else
    let v : ℤ := if neg then -(digitsVal d : ℤ) else digitsVal d
    if -2 ^ 31 ≤ v ∧ v < 2 ^ 31 then some v else none

/-- `boost::split` with `is_any_of` for one character. Called in particle_reader.cpp:342, 361, 667. -/
def split (c : Char) : Str → List Str
  | [] => [[]]
  | x :: l => if x = c then [] :: split c l else
    match split c l with
    | [] => [[x]]
    | f :: r => (x :: f) :: r

/-- `ParticleReader::parse_equals`, particle_reader.cpp:40-63. -/
def parseEquals (line : Str) : Option (Str × Str) :=
  let b := findFirstNotOf line ' '
  let e := findFirstOf line '='
  if b = e then none
  else if e ≠ findLastOf line '=' then none
  else if e = npos then none
  else do
    let lhs ← substr line (findFirstNotOf line ' ') (wrap ((e : ℤ) - b))
    let lhs ← substr lhs 0 (wrap ((findLastNotOf lhs ' ' : ℤ) + 1))
    let rhs ← substr line (wrap ((findLastOf line '=' : ℤ) + 1))
    let rhs ← substr rhs (findFirstNotOf rhs ' ')
    let rhs ← substr rhs 0 (wrap ((findLastNotOf rhs ' ' : ℤ) + 1))
    return (lhs, rhs)

/-! ### XML -/

/-- A node of the document. TinyXML, used in particle_reader.cpp:65-123. -/
inductive Xml
  | elem (name : Str) (attrs : List (Str × Str)) (children : List Xml)
  | text (s : Str)
  | other

/-- An element node. TinyXML, used in particle_reader.cpp:65-123. -/
structure Elem where
  name : Str
  attrs : List (Str × Str)
  children : List Xml

/-- The elements among the children, in order. TinyXML, used in particle_reader.cpp:65-123. -/
def Elem.elems (e : Elem) : List Elem := e.children.filterMap fun
  | .elem n a c => some ⟨n, a, c⟩
  | _ => none

/-- The elements visited by `FirstChildElement(name)` followed by `NextSiblingElement(name)`. TinyXML, used in particle_reader.cpp:65-123. -/
def Elem.named (e : Elem) (name : Str) : List Elem := e.elems.filter fun x => x.name = name

/-- `FirstChildElement(name)`. TinyXML, used in particle_reader.cpp:65-123. -/
def Elem.first (e : Elem) (name : Str) : Option Elem := (e.named name).head?

/-- The elements visited by `FirstChildElement(name)` followed by `NextSiblingElement()` without a name. TinyXML, used in particle_reader.cpp:65-123. -/
def Elem.fromFirst (e : Elem) (name : Str) : List Elem := e.elems.dropWhile fun x => x.name ≠ name

/-- `Attribute(name)`: `none` is a null pointer. TinyXML, used in particle_reader.cpp:65-123. -/
def Elem.attr (e : Elem) (name : Str) : Option Str := (e.attrs.find? fun a => a.1 = name).map Prod.snd

/-- The first text node among the children, e.g. particle_reader.cpp:162-166. -/
def Elem.firstText (e : Elem) : Option Str := e.children.findSome? fun
  | .text s => some s
  | _ => none

/-! ### State -/

/-- `std::map`. particle_reader.hpp:134-146. -/
abbrev Map (α β : Type) := α → Option β

/-- `m[k] = v`. particle_reader.cpp:102-110, 482. -/
def Map.put {α β : Type} [DecidableEq α] (m : Map α β) (k : α) (v : β) : Map α β := fun x => if x = k then some v else m x

/-- The expression interpreter: `LU::Equation(interpreter, s).Evaluate()` in a state (`none`: throws) and `SetParameter`. Called in particle_reader.cpp:147-205. -/
structure Interp (σ V : Type) where
  eval : σ → Str → Option V
  set : σ → Str → V → σ

/-! ### Info -/

/-- The loop of `read_info`, particle_reader.cpp:85-117. -/
def readInfoLoop : List Elem → Map Str Str → Option (Map Str Str)
  | [], m => some m
  | e :: l, m =>
    match e.attr "PROPERTY".toList, e.attr "VALUE".toList with
    | some p, some v => if p = [] then none else if v = [] then none else readInfoLoop l (m.put (upper p) v)
    | _, _ => none

/-- `read_info`, particle_reader.cpp:65-120; `particles` is the PARTICLES element, if there is one. -/
def readInfo (particles : Option Elem) (m : Map Str Str) : Option (Map Str Str) :=
  match particles with
  | none => some m
  | some p => match p.first "INFO".toList with
    | none => some fun _ => none
    | some i => readInfoLoop (i.named ['I']) fun _ => none

/-- `defines_info`, particle_reader.cpp:125-128. -/
def definesInfo (m : Map Str Str) (name : Str) : Bool := (m (upper name)).isSome

/-- `get_info`, particle_reader.cpp:137-145: the name in upper case is computed but the search is for the name as given. -/
def getInfo (m : Map Str Str) (name : Str) : Option Str := m name

/-! ### Parameters -/

/-- The body of a loop over parameter elements, particle_reader.cpp:160-199, 441-478, 679-718. -/
def readParam {σ V : Type} (I : Interp σ V) (e : Elem) (st : σ × Map Str V) : Option (σ × Map Str V) :=
  match e.firstText with
  | none => some st
  | some line =>
    match parseEquals line with
    | none => none
    | some (lhs, rhs) =>
      if lhs ≠ [] ∧ rhs ≠ [] then
        match I.eval st.1 rhs with
        | none => none
        | some value => some (I.set st.1 lhs value, st.2.put (upper lhs) value)
      else some st

/-- The loop. particle_reader.cpp:147-205. -/
def readParamLoop {σ V : Type} (I : Interp σ V) : List Elem → σ × Map Str V → Option (σ × Map Str V)
  | [], st => some st
  | e :: l, st => (readParam I e st).bind (readParamLoop I l)

/-- `read_parameters`, particle_reader.cpp:147-202. -/
def readParameters {σ V : Type} (I : Interp σ V) (particles : Elem) (s : σ) : Option (σ × Map Str V) :=
  match particles.first "PARAMETERS".toList with
  | none => some (s, fun _ => none)
  | some p => readParamLoop I (p.fromFirst ['P']) (s, fun _ => none)

/-- `defines_parameter`, particle_reader.cpp:207-210. -/
def definesParameter {V : Type} (m : Map Str V) (name : Str) : Bool := (m (upper name)).isSome

/-- `get_parameter`, particle_reader.cpp:220-228. -/
def getParameter {V : Type} (m : Map Str V) (name : Str) : Option V := m (upper name)

/-- C's `round`: to the nearest integer, halfway cases away from zero. For particle_reader.cpp:757, 803. -/
def cround {K : Type} [Field K] [LinearOrder K] [FloorRing K] (x : K) : ℤ := if 0 ≤ x then ⌊x + 1 / 2⌋ else ⌈x - 1 / 2⌉

/-- `LU::checked_cast<int>` of an integral value: an assertion fails outside the range of `int`. Called in particle_reader.cpp:757, 780, 803, 815, 831, 843. -/
def checkedCast (v : ℤ) : Option ℤ := if -2 ^ 31 ≤ v ∧ v < 2 ^ 31 then some v else none

/-- The conversion of an `int` to `std::size_t`. particle_reader.cpp:831, 843. -/
def toSizeT (v : ℤ) : ℕ := (v % 2 ^ 64).toNat

/-- `load_parameter(name, NekDouble &)`, particle_reader.cpp:852-859. -/
def loadDouble {V : Type} (m : Map Str V) (name : Str) : Option V := m (upper name)

/-- `load_parameter(name, NekDouble &, default)`, particle_reader.cpp:864-873. -/
def loadDoubleDef {V : Type} (m : Map Str V) (name : Str) (d : V) : V := (m (upper name)).getD d

section
variable {K : Type} [Field K] [LinearOrder K] [FloorRing K]

/-- `load_parameter(name, int &)`, particle_reader.cpp:797-804. -/
def loadInt (m : Map Str K) (name : Str) : Option ℤ := (m (upper name)).bind fun v => checkedCast (cround v)

/-- `load_parameter(name, int &, default)`, particle_reader.cpp:809-819. -/
def loadIntDef (m : Map Str K) (name : Str) (d : ℤ) : Option ℤ :=
  match m (upper name) with
  | some v => checkedCast (cround v)
  | none => some d

/-- `load_parameter(name, size_t &)`, particle_reader.cpp:824-832: through `int`. -/
def loadSize (m : Map Str K) (name : Str) : Option ℕ := (m (upper name)).bind fun v => (checkedCast (cround v)).map toSizeT

/-- `load_parameter(name, size_t &, default)`, particle_reader.cpp:837-847. -/
def loadSizeDef (m : Map Str K) (name : Str) (d : ℕ) : Option ℕ :=
  match m (upper name) with
  | some v => (checkedCast (cround v)).map toSizeT
  | none => some d

end

/-! ### Functions of species -/

/-- `LU::FunctionVariableDefinition`. particle_reader.cpp:230-410. -/
structure FunDef where
  kind : ℕ
  expression : Option (Str × Str)
  filename : Str
  fileVariable : Str
deriving DecidableEq

/-- `eFunctionTypeExpression`, `eFunctionTypeFile`, `eFunctionTypeTransientFile`. particle_reader.cpp:304, 326-328. -/
def kExpression : ℕ := 0
/-- particle_reader.cpp:328. -/
def kFile : ℕ := 1
/-- particle_reader.cpp:326. -/
def kTransient : ℕ := 2

/-- The external parsers: `GenerateVector`, `GenerateSeqVector` (`none`: returns false), `lexical_cast<bool>` (`none`: throws) and the constructor of
`LU::Equation` (whether it succeeds). Called in particle_reader.cpp:230-410. -/
structure Parsers where
  vec : Str → List Str
  seq : Str → Option (List ℕ)
  bool : Str → Option Bool
  equation : Str → Str → Bool

/-- The definition of an entry and the names in the file, particle_reader.cpp:302-379. -/
def funDef (P : Parsers) (v : Elem) (variableList : List Str) (evars : Str) : Option (FunDef × List Str) :=
  if v.name = ['E'] then
    match v.attr "VALUE".toList with
    | none => none
    | some s => if s = [] then none else if P.equation s evars then some (⟨kExpression, some (s, evars), [], []⟩, []) else none
  else if v.name = ['F'] then
    let transient : Option Bool := match v.attr "TIMEDEPENDENT".toList with
      | none => some false
      | some t => P.bool t
    transient.bind fun tr =>
    match v.attr "FILE".toList with
    | none => none
    | some s =>
      if s = [] then none else
      match split ':' s with
      | [f] => some (⟨if tr then kTransient else kFile, none, f, []⟩, [])
      | [f, vars] =>
        match variableList with
        | [] => none
        | v0 :: _ =>
          if v0 = ['*'] then none
          else if (split ',' vars).length ≠ variableList.length then none
          else some (⟨if tr then kTransient else kFile, none, f, []⟩, split ',' vars)
      | _ => none
  else none

/-- The keys of an entry with the index of the variable: the two nested loops, particle_reader.cpp:381-403. -/
def keysOf (vars : List Str) (domains : List ℕ) : List (ℕ × Str × ℕ) :=
  vars.zipIdx.flatMap fun vi => domains.map fun d => (vi.2, vi.1, d)

/-- The insertions of an entry, particle_reader.cpp:381-403. -/
def addKeys (fd : FunDef) (fileVars : List Str) : List (ℕ × Str × ℕ) → Map (Str × ℕ) FunDef → Option (Map (Str × ℕ) FunDef)
  | [], m => some m
  | (i, v, d) :: l, m =>
    if (m (v, d)).isSome then none
    else if fileVars.length > 0 then
      match fileVars[i]? with
      | none => none
      | some fv => addKeys fd fileVars l (m.put (v, d) { fd with fileVariable := fv })
    else addKeys fd fileVars l (m.put (v, d) fd)

/-- The variables, the domains and the further variables of an entry, particle_reader.cpp:271-281. -/
def entryVars (P : Parsers) (v : Elem) : List Str := P.vec ((v.attr "VAR".toList).getD ['*'])
/-- Lines 283-294. -/
def entryDomains (P : Parsers) (v : Elem) : List ℕ := (P.seq ((v.attr "DOMAIN".toList).getD ['0'])).getD []
/-- Lines 296-300. -/
def entryEvars (v : Elem) : Str := match v.attr "EVARS".toList with
  | none => "x y z t".toList
  | some s => "x y z t".toList ++ [' '] ++ s

/-- The entries of one function, particle_reader.cpp:259-404. -/
def readEntries (P : Parsers) : List Elem → Map (Str × ℕ) FunDef → Option (Map (Str × ℕ) FunDef)
  | [], m => some m
  | v :: l, m =>
    (funDef P v (entryVars P v) (entryEvars v)).bind fun fd =>
    (addKeys fd.1 fd.2 (keysOf (entryVars P v) (entryDomains P v)) m).bind (readEntries P l)

/-- `read_species_functions`, particle_reader.cpp:230-410. -/
def readFunctions (P : Parsers) : List Elem → Map Str (Map (Str × ℕ) FunDef) → Option (Map Str (Map (Str × ℕ) FunDef))
  | [], m => some m
  | f :: l, m =>
    match f.attr "NAME".toList with
    | none => none
    | some n =>
      if n = [] then none
      else (readEntries P f.elems fun _ => none).bind fun fm => readFunctions P l (m.put (upper n) fm)

/-! ### Species -/

/-- `SpeciesMap`. particle_reader.hpp:20-21. -/
structure Species (V : Type) where
  name : Str
  params : Map Str V
  functions : Map Str (Map (Str × ℕ) FunDef)

/-- The body of the loop of `read_species`, particle_reader.cpp:418-482. A missing attribute is a null pointer given to `std::string`. -/
def readSpecie {σ V : Type} (P : Parsers) (I : Interp σ V) (e : Elem) (st : σ × Map ℤ (Species V)) : Option (σ × Map ℤ (Species V)) :=
  match e.attr "ID".toList, e.attr "NAME".toList with
  | some id, some name =>
    if id = [] then none else if name = [] then none
    else (readParamLoop I (e.fromFirst ['P']) (st.1, fun _ => none)).bind fun r =>
      (readFunctions P (e.named "FUNCTION".toList) fun _ => none).bind fun fs =>
      (stoi id).map fun i => (r.1, st.2.put i ⟨name, r.2, fs⟩)
  | _, _ => none

/-- The loop. particle_reader.cpp:412-485. -/
def readSpeciesLoop {σ V : Type} (P : Parsers) (I : Interp σ V) : List Elem → σ × Map ℤ (Species V) → Option (σ × Map ℤ (Species V))
  | [], st => some st
  | e :: l, st => (readSpecie P I e st).bind (readSpeciesLoop P I l)

/-- `read_species`, particle_reader.cpp:412-485. -/
def readSpecies {σ V : Type} (P : Parsers) (I : Interp σ V) (particles : Elem) (st : σ × Map ℤ (Species V)) : Option (σ × Map ℤ (Species V)) :=
  match particles.first "SPECIES".toList with
  | none => some st
  | some s => readSpeciesLoop P I (s.named ['S']) st

/-! ### Boundaries -/

/-- `ParticleBoundaryConditionType`. particle_reader.hpp:23-29. -/
inductive BType
  | periodic | reflective | notDefined
deriving DecidableEq

/-- The attributes of a C element, particle_reader.cpp:545-567. -/
def cAttrsOk (attrs : List (Str × Str)) : Bool :=
  attrs.all fun a => a.1 = "SPECIES".toList || (a.1 = "VALUE".toList && a.2 ≠ [])

/-- `int` from a position: `npos` becomes -1. particle_reader.cpp:533-545. -/
def posInt (p : ℕ) : ℤ := if p = npos then -1 else p

/-- The VALUE attribute of a P element, particle_reader.cpp:597-624. -/
def pValueOk (P : Parsers) (s : Str) : Bool :=
  if s = [] then false
  else
    let b := posInt (findFirstOf s '[')
    let e := posInt (findFirstOf s ']')
    match substr s (b + 1).toNat (wrap (e - b - 1)) with
    | none => false
    | some t => decide (b < e) && (match P.seq t with
      | some l => l.length = 1
      | none => false)

/-- The attributes of a P element, particle_reader.cpp:582-627. Other attributes are ignored. -/
def pAttrsOk (P : Parsers) (attrs : List (Str × Str)) : Bool :=
  attrs.all fun a =>
    if a.1 = "SPECIES".toList then true
    else if a.1 = "user_definedTYPE".toList then a.2 ≠ []
    else if a.1 = "VALUE".toList then pValueOk P a.2
    else true

/-- The body of the loop over the conditions of a region, particle_reader.cpp:522-637. A missing SPECIES attribute is a null pointer given to
`std::string`; `std::stoi` is applied before the test for an empty string. The branch for an empty string is kept; `allSpecies` are the keys of the
species map. -/
def readCondition (P : Parsers) (allSpecies : List ℤ) (e : Elem) (m : Map ℤ BType) : Option (Map ℤ BType) :=
  match e.attr "SPECIES".toList with
  | none => none
  | some data =>
    match stoi data with
    | none => none
    | some id =>
      if e.name = ['C'] then
        if data = [] then some (allSpecies.foldl (fun m s => m.put s .reflective) m)
        else if e.attrs ≠ [] then (if cAttrsOk e.attrs then some (m.put id .reflective) else none)
        else some m
      else if e.name = ['P'] then
        if data = [] then none
        else if e.attrs ≠ [] then (if pAttrsOk P e.attrs then some (m.put id .periodic) else none)
        else none
      else some m

/-- The loop over the conditions. particle_reader.cpp:487-645. -/
def readConditions (P : Parsers) (allSpecies : List ℤ) : List Elem → Map ℤ BType → Option (Map ℤ BType)
  | [], m => some m
  | e :: l, m => (readCondition P allSpecies e m).bind (readConditions P allSpecies l)

/-- The loop over the regions, particle_reader.cpp:502-643. `QueryIntAttribute` is taken to accept the strings that `stoi` accepts. -/
def readRegions (P : Parsers) (allSpecies : List ℤ) : List Elem → Map ℤ (Map ℤ BType) → Option (Map ℤ (Map ℤ BType))
  | [], m => some m
  | e :: l, m =>
    match (e.attr "REF".toList).bind stoi with
    | none => none
    | some id =>
      if (m id).isSome then none
      else (readConditions P allSpecies e.elems fun _ => none).bind fun c => readRegions P allSpecies l (m.put id c)

/-- `read_boundary`, particle_reader.cpp:487-645. `nonempty` tells whether boundaries have been read already. -/
def readBoundary (P : Parsers) (allSpecies : List ℤ) (particles : Elem) (nonempty : Bool) (m : Map ℤ (Map ℤ BType)) : Option (Map ℤ (Map ℤ BType)) :=
  if nonempty then some m
  else match particles.first "BOUNDARYINTERACTION".toList with
    | none => some m
    | some b => readRegions P allSpecies (b.named "REGION".toList) m

/-! ### Reactions -/

/-- `ReactionMap`. particle_reader.hpp:32-33. -/
structure Reaction (V : Type) where
  type : Str
  species : List ℤ
  params : Map Str V

/-- The species of a reaction, particle_reader.cpp:665-675. -/
def reactionSpecies {S : Type} (species : Map ℤ S) : List Str → Option (List ℤ)
  | [] => some []
  | s :: l =>
    match stoi s with
    | none => none
    | some i => if (species i).isSome then (reactionSpecies species l).map (i :: ·) else none

/-- The body of the loop of `read_reactions`, particle_reader.cpp:652-722. -/
def readReaction {σ V S : Type} (I : Interp σ V) (species : Map ℤ S) (e : Elem) (st : σ × Map ℤ (Reaction V)) : Option (σ × Map ℤ (Reaction V)) :=
  match e.attr "ID".toList, e.attr "TYPE".toList, e.attr "SPECIES".toList with
  | some id, some type, some sp =>
    if id = [] then none else if type = [] then none
    else (reactionSpecies species (split ',' sp)).bind fun ids =>
      (readParamLoop I (e.fromFirst ['P']) (st.1, fun _ => none)).bind fun r =>
      (stoi id).map fun i => (r.1, st.2.put i ⟨type, ids, r.2⟩)
  | _, _, _ => none

/-- The loop. particle_reader.cpp:647-725. -/
def readReactionsLoop {σ V S : Type} (I : Interp σ V) (species : Map ℤ S) : List Elem → σ × Map ℤ (Reaction V) → Option (σ × Map ℤ (Reaction V))
  | [], st => some st
  | e :: l, st => (readReaction I species e st).bind (readReactionsLoop I species l)

/-- `read_reactions`, particle_reader.cpp:647-725. -/
def readReactions {σ V S : Type} (I : Interp σ V) (species : Map ℤ S) (particles : Elem) (st : σ × Map ℤ (Reaction V)) : Option (σ × Map ℤ (Reaction V)) :=
  match particles.first "REACTIONS".toList with
  | none => some st
  | some r => readReactionsLoop I species (r.named ['R']) st

/-- What `read_particles` reads. particle_reader.cpp:727-746, particle_reader.hpp:134-146. -/
structure Data (σ V : Type) where
  interp : σ
  params : Map Str V
  species : Map ℤ (Species V)
  boundaries : Map ℤ (Map ℤ BType)
  reactions : Map ℤ (Reaction V)

/-- `read_particles` of a new reader whose document has a PARTICLES element, particle_reader.cpp:727-746. `keys` lists the keys of a species map. -/
def readParticles {σ V : Type} (P : Parsers) (I : Interp σ V) (keys : Map ℤ (Species V) → List ℤ) (particles : Elem) (s : σ) : Option (Data σ V) :=
  (readParameters I particles s).bind fun p =>
  (readSpecies P I particles (p.1, fun _ => none)).bind fun sp =>
  (readBoundary P (keys sp.2) particles false fun _ => none).bind fun b =>
  (readReactions I sp.2 particles (sp.1, fun _ => none)).bind fun r =>
  some ⟨r.1, p.2, sp.2, b, r.2⟩

/-- `load_species_parameter`, particle_reader.cpp:748-769; `at` throws for an unknown species. -/
def loadSpeciesDouble {V : Type} (m : Map ℤ (Species V)) (id : ℤ) (name : Str) : Option V := (m id).bind fun s => s.params (upper name)

/-- `load_reaction_parameter`, particle_reader.cpp:771-792. -/
def loadReactionDouble {V : Type} (m : Map ℤ (Reaction V)) (id : ℤ) (name : Str) : Option V := (m id).bind fun s => s.params (upper name)

end Verif.Model.ParticleReader
