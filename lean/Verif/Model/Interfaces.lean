import Verif.Model.Files
/-
Model of the checks around the interfaces of the library: the constructor of `DAGraph` and its serialisation calls (dagraph.py 48-62,
267-329) with the abstract classes of graph/factories.py, `GraphValidationErrors.add_error` (graph_validator.py 29-41), equality and
hash of nodes (spamnode.py 46-52) and versions (spine_version_type.py 20-41), `SpineData.__new__` and `SpineData.get`
(base_type.py 26-39, 63-67), and the file functions of `SpineGraphParser` (spine_nodes.py 124-137).
-/
namespace Spine

/-! ### Parser classes and node factories -/

/-- the methods a parser class defines itself; `none`: inherited from `IGraphParser`, which raises NotImplementedError (factories.py
24-51).  `G` graphs, `J` documents, `P` file names, `S` texts -/
structure ParserMethods (G J P S : Type) where
  createData : Option (J → Except Err G)
  createFile : Option (P → Except Err G)
  toJson : Option (G → Except Err S)
  toJsonData : Option (G → Except Err J)

/-- what can be passed as `graph_parser_cls` -/
inductive ParserArg (G J P S : Type) where
  /-- not a class: `issubclass` raises TypeError -/
  | noClass
  /-- a class that does not derive from `IGraphParser` -/
  | unrelated
  /-- `IGraphParser` -/
  | interface
  /-- a class derived from `IGraphParser` -/
  | derived (m : ParserMethods G J P S)

/-- a method that may be inherited from the interface -/
def callOr {α β : Type} (m : Option (α → Except Err β)) (a : α) : Except Err β :=
  match m with
  | some f => f a
  | none => .error .notImplemented

namespace ParserArg
variable {G J P S : Type}

/-- `DAGraph.to_json` (267-280) -/
def toJson (c : ParserArg G J P S) (g : G) : Except Err S :=
  match c with
  | .derived m => callOr m.toJson g
  | _ => .error .type

/-- `DAGraph.to_json_data` (282-289) -/
def toJsonData (c : ParserArg G J P S) (g : G) : Except Err J :=
  match c with
  | .derived m => callOr m.toJsonData g
  | _ => .error .type

/-- `DAGraph.create_from_json_file` (291-309); the interface itself is not excluded -/
def createFile (c : ParserArg G J P S) (p : P) : Except Err G :=
  match c with
  | .derived m => callOr m.createFile p
  | .interface => .error .notImplemented
  | _ => .error .type

/-- `DAGraph.create_from_json_data` (311-329) -/
def createData (c : ParserArg G J P S) (d : J) : Except Err G :=
  match c with
  | .derived m => callOr m.createData d
  | .interface => .error .notImplemented
  | _ => .error .type

end ParserArg

/-- what can be passed as `node_factory` -/
inductive FactoryArg (T : Type) where
  | absent
  /-- an instance of `INodeFactory` itself -/
  | interface
  /-- an instance of a class that does not derive from `INodeFactory` -/
  | unrelated
  /-- an instance of a derived class -/
  | derived (fac : Factory T)

/-- `DAGraph(node_factory)` (48-62): the factory of the new graph, which has no nodes -/
def newGraph {T D : Type} (dflt : Factory T) : FactoryArg T → Except Err (Factory T × Graph T D)
  | .absent => .ok (dflt, Graph.empty)
  | .derived fac => .ok (fac, Graph.empty)
  | _ => .error .type

/-- `SpineGraphParser.create_from_json_file` (spine_nodes.py 124-133) -/
def SpineNodes.createFromFile {F : Type} [JsonRt F] (fs : Files.FS) (p : Str) : Except Err (SGraph F) :=
  match fs.read p with
  | .error e => .error e
  | .ok t => match JsonText.decode t with
    | .error e => .error e
    | .ok v => SpineNodes.create v

/-- the document of `to_json_data` (140-173) as a JSON value -/
def SpineNodes.GraphJson.toJVal {F : Type} (j : SpineNodes.GraphJson F) : JVal F :=
  .dict [(s!!"slots", .list j.slots), (s!!"bones", .list j.bones), (s!!"ik", .list j.ik)]

/-- `SpineGraphParser` (spine_nodes.py 122-173) as a parser class -/
def spineParser {F : Type} [JsonRt F] (fs : Files.FS) : ParserMethods (SGraph F) (JVal F) Str Str where
  createData := some SpineNodes.create
  createFile := some (SpineNodes.createFromFile fs)
  toJson := some (fun g => (SpineNodes.toJsonData g).map (fun j => JsonText.encode .compact j.toJVal))
  toJsonData := some (fun g => (SpineNodes.toJsonData g).map (·.toJVal))

/-! ### Validation errors -/

/-- `GraphErrorType` (graph_validator.py 24-26) -/
inductive ErrType where
  | circularRefs
  | unconnectedNodes

/-- `GraphErrorType.X.name` -/
def ErrType.name : ErrType → Str
  | .circularRefs => s!!"CIRCULAR_REFS"
  | .unconnectedNodes => s!!"UNCONNECTED_NODES"

/-- `add_error` (33-41): the list of dictionaries; `none` is an argument of another type -/
def addError (errors : List (Dict (List Str))) (ids : List Str) : Option ErrType → Except Err (List (Dict (List Str)))
  | none => .error .type
  | some t => .ok (errors ++ [[(t.name, ids)]])

/-- an error of the model as the dictionary the code stores -/
def Graph.GraphError.asDict : Graph.GraphError → Dict (List Str)
  | .circularRefs ids => [(s!!"CIRCULAR_REFS", ids)]
  | .unconnectedNodes ids => [(s!!"UNCONNECTED_NODES", ids)]

/-- `GraphValidator.validate` (53-65) with the calls of `add_error` -/
def validateAdding {T D : Type} [DecidableEq T] (root : T) (g : Graph T D) : Except Err (List (Dict (List Str))) :=
  match Graph.circular g with
  | .error e => .error e
  | .ok cs =>
    match (if cs ≠ [] then addError [] cs (some .circularRefs) else .ok []) with
    | .error e => .error e
    | .ok errs => match Graph.unconnected root g with
      | .error e => .error e
      | .ok us => if us ≠ [] then addError errs us (some .unconnectedNodes) else .ok errs

/-! ### Equality and hash -/

/-- an id of a node; nodes of a graph have strings, a node built directly can have an int (other types are not modelled) -/
inductive PyId where
  | str (s : Str)
  | int (i : Int)
  deriving DecidableEq

/-- the other side of `node == other`: an object with an attribute `id`, or without -/
inductive EqArg where
  | withId (i : PyId)
  | noId

/-- `SpamNode.__eq__` (spamnode.py 46-48) -/
def nodeEq (i : PyId) : EqArg → Except Err Bool
  | .withId j => .ok (decide (i = j))
  | .noId => .error .attribute

/-- `hash(node)`: `SpamNode.__hash__` returns the id (50-52), and `hash` accepts an int only -/
def nodeHash : PyId → Except Err Unit
  | .int _ => .ok ()
  | .str _ => .error .type

/-- `version == other` (spine_version_type.py 30-41) -/
def versionEq (F : Type) [PyRt F] (v : Version) (o : VersionArg) : Except Err Bool := (o.cast F).map (Version.eq v)

/-- `hash(version)`: a class with `__eq__` and without `__hash__` is not hashable -/
def versionHash (_ : Version) : Except Err Unit := .error .type

/-! ### SpineData -/

/-- `SpineData.__new__` (base_type.py 26-39) for a class with these constants; `none` is `None` -/
def newInstance {F : Type} (defaults defaults38 : Option (Dict (JVal F))) : Except Err Unit :=
  match defaults with
  | none => .error .notImplemented
  | some _ => match defaults38 with
    | none => .error .notImplemented
    | some _ => .ok ()

/-- the result of `get`: an attribute of the object, a member of its class (a method or a constant), or the default -/
inductive Got (F : Type) where
  | attr (v : JVal F)
  | member
  | dflt

/-- `SpineData.get(name, default)` (63-67); `member k`: the class has a member `k` that is not `None` -/
def getAttr {F : Type} (member : Str → Bool) (a : Attrs F) (k : Str) : Got F :=
  match Dict.get? a k with
  | some .null => .dflt
  | some v => .attr v
  | none => if member k then .member else .dflt

/-- the members of `SpineData` that are not `None` on a class that can be instantiated (base_type.py 12-162), without those of `object` -/
def baseMembers : List Str := [s!!"DEFAULT_VALUES", s!!"SPINE_3_8_DEFAULT_VALUES", s!!"REQUIRED", s!!"get", s!!"default_values",
  s!!"set_default_values", s!!"to_json", s!!"clean_unsupported_attributes", s!!"set_default_values_from_version",
  s!!"to_spine_data_ignoring_default_values", s!!"remove_unsupported_attributes", s!!"traverse_spine_data"]

end Spine
