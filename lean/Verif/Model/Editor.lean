import Verif.Model.AnimData
import Verif.Model.SpineNodes
/-
Model of `spine_animation_editor.py`.

Simplifications
* `images_references` is never None (it is set by the constructor), so the check 110-113 is omitted;
* `print` is omitted; `deepcopy` is the identity, as values are immutable here; Model/Alias.lean models the
  objects, and C80 compares the two models;
* the file functions `from_json_file`, `to_json`, `save_images_json` are in Model/Files.lean;
* `AnimationEraserResult` (22-33) is never used by the library; it is in `Model/Bulk.lean`.
-/
namespace Spine
open JVal
variable {F : Type}

/-! ### Animation (animation.py 94-117) -/
namespace Anim

/-- loop body of `remove_draw_order_with_ids` (94-96) -/
def cleanDraw (ids : List Str) (orig : List (Slot F)) (t : DrawTl F) : Res (DrawTl F) Unit :=
  match DrawOrder.removeOffsets Slot.name ids orig t.offsets with
  | .error e => (.error e, t)
  | .ok o => (.ok (), { t with offsets := o })

/-- `remove_draw_order_with_ids` (94-96) -/
def removeDrawOrder (ids : List Str) (orig : List (Slot F)) (a : Anim F) : Res (Anim F) Unit :=
  let q := mapMut (cleanDraw ids orig) a.drawOrder
  (q.1, { a with drawOrder := q.2 })

/-- `remove_deforms_using_slots` (98-102) -/
def removeDeformSlots (ids : List Str) (a : Anim F) : Anim F :=
  { a with deform := dmap (fun v => v.filter (fun p => p.1 ∉ ids)) a.deform }

/-- `remove_deforms_with_attachments_on_skin` (104-117) -/
def removeDeformAtts (ids : List Str) (skin : Str) (a : Anim F) : Anim F :=
  match Dict.get? a.deform skin with
  | none => a
  | some d => { a with deform := Dict.set a.deform skin (dmap (fun v => v.filter (fun p => p.1 ∉ ids)) d) }

/-- the slot timelines without the removed slots (spine_animation_editor.py 340-344) -/
def removeSlots (ids : List Str) (a : Anim F) : Anim F := { a with slots := a.slots.filter (fun p => p.1 ∉ ids) }

end Anim

/-- an entry of `images_references`: `{"path": …}` or `{"path": …, "scale": …}` -/
structure ImageRef (F : Type) where
  path : Str
  scale : Option F

/-- `SpineAnimationEditor` (41-57) -/
structure Editor (F : Type) where
  doc : SpineDoc F
  images : Dict (ImageRef F)
  graph : SGraph F

/-- the elements of a set, in the order they are iterated -/
def setList (F : Type) [PyRt F] (l : List Str) : List Str := PyRt.setOrder F l.eraseDups

namespace Editor
variable [PyRt F]

/-! ### images_references (227-253) -/

/-- `skin_sub_part_instance.path or skin_sub_part_instance.name or sub_part_key` (243-247) -/
def imageOf (key : Str) (x : Att F) : Except Err Str := do
  let p ← x.strAttr s!!"path"
  match pyOr p none with
  | some i => return i
  | none => do
    let n ← x.strAttr s!!"name"
    match pyOr n none with
    | some i => return i
    | none => return key

/-- `os.path.join(images_folder, relative_path)` (249): a folder that is not a string is a TypeError -/
def joinFolder (folder : JVal F) (rel : Str) : Except Err Str :=
  match folder with
  | .str f => .ok (pathJoin f rel)
  | _ => .error .type

/-- loop body 240-252 -/
def refStep (folder : JVal F) (scale : F) (acc : Dict (ImageRef F)) (p : Str × Att F) : Except Err (Dict (ImageRef F)) :=
  if p.2.kind = .path then .ok acc
  else do
    let rel ← imageOf p.1 p.2
    let full ← joinFolder folder rel
    return Dict.set acc rel { path := full, scale := if PyRt.feq scale PyRt.fone then none else some scale }

/-- loop body 237-252 -/
def refSlot (a : AnimData F) (folder : JVal F) (acc : Dict (ImageRef F)) (p : Str × Dict (Att F)) :
    Except Err (Dict (ImageRef F)) :=
  match AnimData.slotScale a (AnimData.getSlot a p.1) with
  | .error e => .error e
  | .ok scale => Graph.foldE (refStep folder scale) acc p.2

/-- loop body 231-252: before 3.8 `skins[skin]` indexes a list with an object (TypeError) -/
def refSkin (v38 : Bool) (a : AnimData F) (folder : JVal F) (acc : Dict (ImageRef F)) (s : Skin F) :
    Except Err (Dict (ImageRef F)) :=
  if v38 then Graph.foldE (refSlot a folder) acc s.attachments else .error .type

/-- `get_images_references` (227-253) -/
def imagesReferences (s : SpineDoc F) : Except Err (Dict (ImageRef F)) :=
  let folder := (Dict.get? s.skeleton s!!"images").getD (.str s!!"./images/")
  Graph.foldE (refSkin s.version.is38 s.data folder) [] s.data.skins

/-- `SpineAnimationEditor(json_data)` (51-57) -/
def load (doc : JVal F) : Except Err (Editor F) :=
  match SpineDoc.load doc with
  | .error e => .error e
  | .ok s => match imagesReferences s with
    | .error e => .error e
    | .ok im => match SpineNodes.create s.toJson with
      | .error e => .error e
      | .ok g => .ok { doc := s, images := im, graph := g }

/-- `to_json_data` (216-217) -/
def toJson (e : Editor F) : JVal F := e.doc.toJson

def data (e : Editor F) : AnimData F := e.doc.data
def withData (e : Editor F) (a : AnimData F) : Editor F := { e with doc := { e.doc with data := a } }

/-! ### clean_animation (133-190) -/

/-- `_clean_images_references` (281-292) -/
def cleanImages (ids : List (Option Str)) (e : Editor F) : Editor F :=
  { e with images := e.images.filter (fun p => some p.1 ∉ ids) }

/-- `_clean_slots_in_skins` (294-304) -/
def slotsInSkins (ids : List Str) (a : AnimData F) : AnimData F :=
  { a with skins := a.skins.map (fun s => { s with attachments := s.attachments.filter (fun p => p.1 ∉ ids) }) }

/-- `_clean_slots_in_animations` (338-345) -/
def slotsInAnims (ids : List Str) (a : AnimData F) : AnimData F :=
  { a with animations := dmap (fun x => (x.removeSlots ids).removeDeformSlots ids) a.animations }

/-- `_clean_draw_order_refs` (347-353) -/
def drawOrderRefs (ids : List Str) (orig : List (Slot F)) (a : AnimData F) : Res (AnimData F) Unit :=
  let q := mapMutD (fun _ x => Anim.removeDrawOrder ids orig x) a.animations
  (q.1, { a with animations := q.2 })

/-- `remove_slots` (192-195) -/
def removeSlots (ids : List Str) (orig : List (Slot F)) (a : AnimData F) : Res (AnimData F) Unit :=
  drawOrderRefs ids orig (slotsInAnims ids (slotsInSkins ids a))

/-- `_clean_attachments_in_skins` (306-321) -/
def attsInSkins (ids : List Str) (a : AnimData F) : AnimData F :=
  { a with
    skins := a.skins.map (fun s => { s with attachments := dmap (fun e => e.filter (fun p => p.1 ∉ ids)) s.attachments })
    animations := a.skins.foldl (fun an s => dmap (Anim.removeDeformAtts ids s.name) an) a.animations }

/-- `_clean_attachments_in_slots` (323-336): the ids are compared with the graph id of the setup attachment -/
def attsInSlots (ids : List Str) (a : AnimData F) : AnimData F :=
  { a with slots := a.slots.map (fun s => match s.attachment with
    | some t => if graphId .attachment t ∈ ids then { s with attachment := none } else s
    | none => s) }

/-- `remove_attachments` (197-199) -/
def removeAttachments (ids : List Str) (a : AnimData F) : AnimData F := attsInSlots ids (attsInSkins ids a)

/-- the graph part at the start (151-158): new graph, and the slots to remove -/
def cleanGraph (slots atts : List Str) (g : SGraph F) : Res (SGraph F) (List Str) :=
  match Container.removeNamed .slot (setList F slots) g with
  | (.error e, g) => (.error e, g)
  | (.ok _, g) => match Container.removeNamed .attachment (setList F atts) g with
    | (.error e, g) => (.error e, g)
    | (.ok _, g) => match Container.removeLeafsOfType (baseId .slot) .slot g with
      | (.error e, g) => (.error e, g)
      | (.ok leafs, g) => (.ok (setList F (slots ++ leafs)), g)

/-- 161-165: bones, slots and iks are read back from the graph, one list after the other -/
def readBack (e : Editor F) : Res (Editor F) Unit :=
  match SpineNodes.toJsonData e.graph with
  | .error x => (.error x, e)
  | .ok j => match mapE Bone.init j.bones with
    | .error x => (.error x, e)
    | .ok bs =>
      let e := e.withData { e.data with bones := bs }
      match mapE Slot.init j.slots with
      | .error x => (.error x, e)
      | .ok ss =>
        let e := e.withData { e.data with slots := ss }
        match mapE ikCls.init j.ik with
        | .error x => (.error x, e)
        | .ok is =>
          let a := { e.data with ik := is }
          (.ok (), e.withData (a.setDefaults e.doc.version.is38))

/-- the graph part at the end (174-186): detached attachments and images; the removed images -/
def detach (g : SGraph F) : Res (SGraph F) (List Str) :=
  match Container.removeHeadsOfType (baseId .attachment) .attachment g with
  | (.error e, g) => (.error e, g)
  | (.ok _, g) => match Container.removeLeafsOfType (baseId .attachment) .attachment g with
    | (.error e, g) => (.error e, g)
    | (.ok _, g) => Container.removeHeadsOfType (baseId .image) .image g

/-- `clean_animation` (133-190): the removed slots (a list) and the removed attachments (a set) -/
def clean (e : Editor F) : Res (Editor F) (List Str × List Str) :=
  let before := e.data.slots
  match AnimData.unused e.data with
  | .error x => (.error x, e)
  | .ok (slots, atts) => match cleanGraph slots atts e.graph with
    | (.error x, g) => (.error x, { e with graph := g })
    | (.ok ids, g) => match readBack { e with graph := g } with
      | (.error x, e) => (.error x, e)
      | (.ok _, e) => match removeSlots ids before e.data with
        | (.error x, a) => (.error x, e.withData a)
        | (.ok _, a) =>
          let e := e.withData (removeAttachments atts a)
          match detach e.graph with
          | (.error x, g) => (.error x, { e with graph := g })
          | (.ok imgs, g) => (.ok (ids, atts), cleanImages (imgs.map some) { e with graph := g })

/-- `clean_animation()` unless `is_safe_mode` (96-99, 127-130) -/
def cleanUnless (safe : Bool) (e : Editor F) : Res (Editor F) (List Str × List Str) :=
  if safe then (.ok ([], []), e) else clean e

/-! ### erase_skins (66-102) -/

/-- the loop 69-75 -/
def removeSkins : List Str → AnimData F → Res (AnimData F) (List (Option Str) × List Str)
  | [], a => (.ok ([], []), a)
  | n :: ns, a => match AnimData.removeSkin n a with
    | (.error e, a) => (.error e, a)
    | (.ok (i, r), a) => match removeSkins ns a with
      | (.error e, a) => (.error e, a)
      | (.ok (is, rs), a) => (.ok (i ++ is, r ++ rs), a)

/-- `"{}_IMAGE".format(img)` (90-92) -/
def imageId (i : Option Str) : Str := graphId .image (i.getD s!!"None")

/-- `erase_skins` (66-102): ((removed slots, removed attachments), removed images) -/
def eraseSkins (names : List Str) (safe : Bool) (e : Editor F) :
    Res (Editor F) ((List Str × List Str) × List (Option Str)) :=
  match removeSkins names e.data with
  | (.error x, a) => (.error x, e.withData a)
  | (.ok (imgs, regions), a) =>
    let e := e.withData a
    match SpineNodes.create e.toJson with
    | .error x => (.error x, e)
    | .ok g =>
      let e := { e with graph := g }
      let gone := (imgs ++ regions.map some).filter (fun i => (Graph.getNode g (imageId i)).isNone)
      match cleanUnless safe e with
      | (.error x, e) => (.error x, e)
      | (.ok r, e) => (.ok (r, gone), cleanImages gone e)

/-! ### erase_animations (104-131, 263-279) -/

/-- the argument `animations_to_erase` -/
inductive NamesArg where
  | list (l : List Str)
  | other

/-- the loop 268-272: the remaining animations and the names that were not found -/
def eraseRaw : List Str → Dict (Anim F) → Dict (Anim F) × List Str
  | [], d => (d, [])
  | n :: ns, d =>
    if Dict.has d n then eraseRaw ns (Dict.del d n)
    else let q := eraseRaw ns d; (q.1, n :: q.2)

/-- `erase_animations` (104-131): (output document, removed data) -/
def eraseAnims (arg : NamesArg) (strict safe : Bool) (e : Editor F) :
    Res (Editor F) (JVal F × (List Str × List Str)) :=
  match arg with
  | .other => (.error .type, e)
  | .list names =>
    let q := eraseRaw names e.data.animations
    let e := e.withData { e.data with animations := q.1 }
    if q.2 ≠ [] ∧ strict then (.error .value, e)
    else match cleanUnless safe e with
      | (.error x, e) => (.error x, e)
      | (.ok r, e) => (.ok (e.toJson, r), e)

/-! ### scale_animation (201-210) -/

/-- the test 208 -/
def noInherit (b : Bone F) : Bool :=
  match b.rest.val s!!"transform" with
  | .str t => t ∈ [s!!"noScale", s!!"noScaleOrReflection", s!!"onlyTranslation"]
  | _ => false

/-- change the first bone named `n` -/
def onFirst (n : Str) (f : Bone F → Res (Bone F) Unit) : List (Bone F) → Res (List (Bone F)) Unit
  | [] => (.error .attribute, [])
  | b :: r => if b.name = n then let q := f b; (q.1, q.2 :: r) else let q := onFirst n f r; (q.1, b :: q.2)

/-- `scale_animation` (201-210) -/
def scale (sx sy : Num F) (e : Editor F) : Res (Editor F) Unit :=
  match mapMut (fun b => if noInherit b then b.scale sx sy else (.ok (), b)) e.data.bones with
  | (.error x, bs) => (.error x, e.withData { e.data with bones := bs })
  | (.ok _, bs) =>
    let q := onFirst s!!"root" (Bone.scale sx sy) bs
    (q.1, e.withData { e.data with bones := q.2 })

/-! ### Histories of calls -/

/-- the mutating calls of the public editor API -/
inductive Op (F : Type) where
  | eraseSkins (names : List Str) (safe : Bool)
  | eraseAnims (arg : NamesArg) (strict safe : Bool)
  | clean
  | scale (sx sy : Num F)

/-- the outcome of a call without its value -/
def Op.run (o : Op F) (e : Editor F) : Res (Editor F) Unit :=
  match o with
  | .eraseSkins n s => let q := Editor.eraseSkins n s e; (q.1.map (fun _ => ()), q.2)
  | .eraseAnims a t s => let q := Editor.eraseAnims a t s e; (q.1.map (fun _ => ()), q.2)
  | .clean => let q := Editor.clean e; (q.1.map (fun _ => ()), q.2)
  | .scale x y => Editor.scale x y e

end Editor
end Spine
