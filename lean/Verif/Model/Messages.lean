import Verif.Model.Console
import Verif.Model.Version
import Verif.Model.Tags
import Verif.Model.Interfaces
/-
The messages of the exceptions that the library itself raises.  The functions that raise them, again, with the message beside the
exception; `c93_same` shows that without the messages they are the functions of the other files.  `none` is an exception
that Python raises (AttributeError on None, KeyError, ValueError of `float` and `int`), or one whose message is not followed
(in `erase_skins`, those of the steps after the loop over the names).
-/
namespace Spine
namespace Messages
variable {F : Type} [PyRt F] {T D : Type}

/-- the two ends of an edge, as the messages call them -/
inductive Role where
  | parent | child
  deriving DecidableEq

/-- what is said -/
inductive Msg (F : Type) where
  /-- `WRONG_NODE_ID_TYPE` (dagraph.py 19, 77) -/
  | idType
  /-- `UNIQUE_ID_ERROR_MESSAGE` (dagraph.py 17, 79) -/
  | idUsed (id : Str)
  /-- `ID_NODE_NOT_FOUND` (dagraph.py 20, 129) -/
  | noNode (id : Str)
  /-- `PARENTSHIP_TO_NO_NODE` (spamnode.py 5, 81, 98) -/
  | notANode (r : Role)
  /-- `CHILD_TYPE_FORBIDDEN` (spamnode.py 6, 101) -/
  | forbidden
  /-- `CIRCULAR_PARENTSHIP_NODE_ERROR` (spamnode.py 4, 84, 104) -/
  | ownRelative (r : Role)
  /-- dagraph.py 159-163 -/
  | invalidGraph (errs : List Graph.GraphError)
  /-- dagraph.py 166-175 -/
  | noEnd (id : Str)
  /-- spine_version_type.py 118-123 -/
  | version (v : Str)
  /-- utils.py 59 -/
  | tagRepeated (n : Str)
  /-- utils.py 62 -/
  | tagUnsupported (n name : Str)
  /-- spine_anim_data.py 135-139 -/
  | noSkin (n : Str)
  /-- base_type.py 49-54; `cls` is the text of the class -/
  | unsupported (attrs : List Str) (cls : Str)
  /-- base_type.py 58-61; the attributes are a set, in the order it is iterated -/
  | missing (attrs : List Str) (cls : Str)
  /-- skin.py 50-54 -/
  | attType (ty : JVal F) (key : Str)

def Role.text : Role → Str
  | .parent => s!!"parent"
  | .child => s!!"child"

/-- `repr` of a dictionary of lists of strings with one key -/
def errText (pr : Char → Bool) (e : Graph.GraphError) : Str :=
  '{' :: (Repr.join (e.asDict.map (fun p => Repr.str pr p.1 ++ s!!": " ++ Repr.strs pr p.2)) ++ ['}'])

/-- `"{}".format(v)` -/
def formatted (pr : Char → Bool) (fr : F → Str) : JVal F → Str
  | .str s => s
  | v => Repr.val pr fr v

/-- `SKIN_ATTACHMENTS_TYPES` (skin.py 17-25) -/
def listed : List Str := [s!!"mesh", s!!"path", s!!"slot", s!!"point", s!!"clipping", s!!"boundingbox", s!!"region"]

/-- the text -/
def Msg.text (pr : Char → Bool) (fr : F → Str) : Msg F → Str
  | .idType => s!!"Only string type allowed for node_id param"
  | .idUsed i => s!!"Multiples nodes with ID = " ++ i ++ s!!" where found, but ids need to be unique"
  | .noNode i => s!!"Node with ID = " ++ i ++ s!!" was not found in the graph"
  | .notANode r => r.text ++ s!!" needs to be a node"
  | .forbidden => s!!"The type of the child is forbidden for this node"
  | .ownRelative r => s!!"A node cannot be its own " ++ r.text
  | .invalidGraph es => s!!"The current graph is invalid with the following errors " ++ '[' :: (Repr.join (es.map (errText pr)) ++ [']'])
  | .noEnd i => s!!"Could not find the node with id: " ++ i ++ s!!" inside the graph"
  | .version v => v ++ s!!" is not a valid spine version. Needs to be of the following format 'mayor.minor.patch'"
  | .tagRepeated n => s!!"Found TAG [" ++ n ++ s!!"] repeated in name"
  | .tagUnsupported n name => s!!"Found unsupported TAG [" ++ n ++ s!!"] in " ++ name
  | .noSkin n => s!!"Trying to remove skin with name " ++ n ++ s!!" but was not found"
  | .unsupported l c => s!!"Internal Error: sorry, some attributes " ++ Repr.strs pr l ++ s!!" are not supported in " ++ c ++
      s!!". Talk with product owner to add support to this spine feature"
  | .missing l c => s!!"Internal Error: missing required attributes " ++ '{' :: (Repr.join (l.map (Repr.str pr)) ++ ['}']) ++ s!!" in " ++ c ++
      s!!". Talk with product owner to add support to this spine feature"
  | .attType t k => s!!"Error: wrong skin attachment type " ++ formatted pr fr t ++ s!!" in id " ++ k ++ s!!" when only " ++
      Repr.strs pr listed ++ s!!" are supported"

/-- an exception and its message -/
abbrev Exc (F : Type) := Err × Option (Msg F)

/-- the result of a changing call -/
abbrev MRes (F σ α : Type) := Except (Exc F) α × σ

/-- an outcome without its message -/
def dull {α : Type} (x : Except (Exc F) α) : Except Err α := x.mapError (·.1)

/-! ### The graph -/

/-- an outcome of Python itself -/
def plain {α : Type} (x : Except Err α) : Except (Exc F) α := x.mapError (fun e => (e, none))

/-- `add_node` (dagraph.py 64-92) -/
def addNode (fac : Factory T) (g : Graph T D) (nid : IdArg) (data : D) (ty : T) : MRes F (Graph T D) Str :=
  match Graph.genId g with
  | (.error e, g) => (.error (e, none), g)
  | (.ok u, g) =>
    let ins (i : Str) : MRes F (Graph T D) Str :=
      let node : Node T D :=
        { id := i, data := data, ntype := (fac ty).1, order := u, forbidden := (fac ty).2, children := [], parents := [] }
      (.ok i, { g with counter := g.counter + 1, nodes := Dict.set g.nodes i node })
    match nid with
    | .absent => ins u
    | .nonStr => (.error (.type, some .idType), g)
    | .str s => if Dict.has g.nodes s then (.error (.value, some (.idUsed s)), g) else ins s

/-- `_add_child` (spamnode.py 89-107) -/
def addChild [DecidableEq T] (g : Graph T D) (p : Str) (n1 : Node T D) (c : Str) (n2 : Option (Node T D)) : MRes F (Graph T D) Unit :=
  match n2 with
  | none => (.error (.type, some (.notANode .child)), g)
  | some n2 =>
    if n2.ntype ∈ n1.forbidden then (.error (.type, some .forbidden), g)
    else if p = c then (.error (.value, some (.ownRelative .child)), g)
    else (.ok (), { g with nodes := Dict.modify g.nodes p (fun n => { n with children := Graph.addLink n.children n2.id }) })

/-- `_add_parent` (spamnode.py 73-87) -/
def addParent (g : Graph T D) (c p : Str) (n1 : Option (Node T D)) : MRes F (Graph T D) Unit :=
  match n1 with
  | none => (.error (.type, some (.notANode .parent)), g)
  | some n1 =>
    if p = c then (.error (.value, some (.ownRelative .parent)), g)
    else (.ok (), { g with nodes := Dict.modify g.nodes c (fun n => { n with parents := Graph.addLink n.parents n1.id }) })

/-- `add_edge` (dagraph.py 105-115) -/
def addEdge [DecidableEq T] (g : Graph T D) (p c : Str) : MRes F (Graph T D) Unit :=
  let n1 := Graph.getNode g p
  let n2 := Graph.getNode g c
  let second (g : Graph T D) : MRes F (Graph T D) Unit :=
    match n2 with
    | none => (.error (.attribute, none), g)
    | some _ => addParent g c p n1
  match n1 with
  | none => second g
  | some m1 =>
    match addChild g p m1 c n2 with
    | (.ok _, g) => second g
    | (.error e, g) => (.error e, g)

/-- `remove_node_by_id` (dagraph.py 124-138) -/
def removeNode (g : Graph T D) (id : Str) : MRes F (Graph T D) (Node T D) :=
  match Graph.getNode g id with
  | none => (.error (.value, some (.noNode id)), g)
  | some _ => let q := Graph.removeNode g id; (plain q.1, q.2)

/-- `get_all_paths` (dagraph.py 148-205) -/
def allPaths [DecidableEq T] (root : T) (g : Graph T D) (a b : Str) (maxDepth : Int) : Except (Exc F) (List (List Str)) :=
  match Graph.validate root g with
  | .error e => .error (e, none)
  | .ok errs =>
    if errs ≠ [] then .error (.value, some (.invalidGraph errs))
    else if ¬ Dict.has g.nodes a then .error (.value, some (.noEnd a))
    else if ¬ Dict.has g.nodes b then .error (.value, some (.noEnd b))
    else match Graph.look g b maxDepth.toNat { paths := [], visited := [], path := [] } a with
      | .ok s => .ok s.paths
      | .error e => .error (e, none)

/-! ### Versions and tags -/

/-- `validate` (spine_version_type.py 108-124) -/
def validate (v : Str) : Except (Exc F) Unit :=
  let n := (splitOn '.' v).length
  if (n = 2 ∨ n = 3) ∧ Version.regexMatch F v = true then .ok () else .error (.value, some (.version v))

/-- `SpineVersion(version)` (spine_version_type.py 8-12) -/
def version (v : Str) : Except (Exc F) Version := do
  validate (F := F) v
  plain (Version.mk? F v)

/-- loop body of `get_tags_from_name` (utils.py 51-65); `name` is the argument of the function -/
def tagStep (name : Str) (acc : Dict F) (tag : Str) : Except (Exc F) (Dict F) := do
  let inner := tag.tail.dropLast
  match splitOn ':' inner with
  | [n, v] =>
    let n := strip F n
    let v := strip F v
    if Dict.has acc n then .error (.value, some (.tagRepeated n))
    else if n ≠ s!!"scale" then .error (.value, some (.tagUnsupported n name))
    else do
      let x ← plain (Tags.castNumber F v)
      return Dict.set acc n x
  | _ => .error (.value, none)

/-- `get_tags_from_name` (utils.py 48-67) -/
def getTags (name : Str) : Except (Exc F) (Dict F) := (Tags.findall F name).foldlM (tagStep name) []

/-! ### The editor -/

/-- `remove_skin` (spine_anim_data.py 132-191) -/
def removeSkin (n : Str) (a : AnimData F) : MRes F (AnimData F) (List (Option Str) × List Str) :=
  match AnimData.getSkin a n with
  | none => (.error (.editor, some (.noSkin n)), a)
  | some _ => let q := AnimData.removeSkin n a; (plain q.1, q.2)

/-- the loop of `erase_skins` (spine_animation_editor.py 69-75) -/
def removeSkins : List Str → AnimData F → MRes F (AnimData F) (List (Option Str) × List Str)
  | [], a => (.ok ([], []), a)
  | n :: ns, a => match removeSkin n a with
    | (.error e, a) => (.error e, a)
    | (.ok (i, r), a) => match removeSkins ns a with
      | (.error e, a) => (.error e, a)
      | (.ok (is, rs), a) => (.ok (i ++ is, r ++ rs), a)

/-- `erase_skins` (spine_animation_editor.py 66-102) -/
def eraseSkins (names : List Str) (safe : Bool) (e : Editor F) : MRes F (Editor F) ((List Str × List Str) × List (Option Str)) :=
  match removeSkins names e.data with
  | (.error x, a) => (.error x, e.withData a)
  | (.ok _, _) => let q := Editor.eraseSkins names safe e; (plain q.1, q.2)

/-! ### Reading -/

/-- `SpineData.__init__` (base_type.py 41-61) -/
def check (cls : Str) (known required : List Str) (d : Dict (JVal F)) : Except (Exc F) Unit :=
  let unknown := (Dict.keys d).filter (fun k => k ∉ known)
  if unknown ≠ [] then .error (.unsupportedAttrs unknown, some (.unsupported unknown cls))
  else
    let missing := required.filter (fun k => k ∉ Dict.keys d)
    if missing ≠ [] then .error (.missingRequired missing, some (.missing (setList F missing) cls)) else .ok ()

/-- constructor of a leaf class -/
def init (cls : Str) (c : Cls F) (v : JVal F) : Except (Exc F) (Attrs F) := do
  let d ← plain (c.values v)
  check cls c.attrs c.required d
  return c.attrs.map (fun k => (k, (Dict.get? d k).getD .null))

/-- the classes of attachments, as they are printed -/
def className : AttKind → Str
  | .region => s!!"<class 'spine_json_lib.data.data_types.skin.SkinAttachment'>"
  | .mesh => s!!"<class 'spine_json_lib.data.data_types.skin.SkinMesh'>"
  | .path => s!!"<class 'spine_json_lib.data.data_types.skin.SkinPath'>"
  | .linked => s!!"<class 'spine_json_lib.data.data_types.skin.SkinLinkedMesh'>"
  | .point => s!!"<class 'spine_json_lib.data.data_types.skin.SkinPoint'>"
  | .clipping => s!!"<class 'spine_json_lib.data.data_types.skin.SkinClipping'>"
  | .bbox => s!!"<class 'spine_json_lib.data.data_types.skin.SkinBoundingBox'>"

/-- one attachment (skin.py 30-54) -/
def attachment (key : Str) (v : JVal F) : Except (Exc F) (Att F) :=
  match v with
  | .dict d => match Att.kindOf d with
    | .error e => .error (e, some (.attType ((Dict.get? d s!!"type").getD .null) key))
    | .ok k => do
      let a ← init (className k) (AttKind.cls k) v
      if Att.typed a then return { kind := k, attrs := a } else .error (.unmodelled, none)
  | _ => .error (.attribute, none)

/-- `for` over a dictionary, stopping at the first exception -/
def mapD {α β : Type} (f : Str → α → Except (Exc F) β) : Dict α → Except (Exc F) (Dict β)
  | [] => .ok []
  | p :: d => match f p.1 p.2 with
    | .error e => .error e
    | .ok b => match mapD f d with
      | .error e => .error e
      | .ok r => .ok ((p.1, b) :: r)

/-- `parse_skin_attachment_data` (skin.py 28-55) -/
def attachments (v : JVal F) : Except (Exc F) (Dict (Dict (Att F))) := do
  let d ← plain (Skin.level v)
  mapD (fun _ w => do
    let e ← plain (Skin.level w)
    mapD attachment e) d

end Messages
end Spine
