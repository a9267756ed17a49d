import Verif.Model.Py
/-
Well-typed documents, as far as the graph is concerned: lists of objects whose names are strings, whose references are
strings (or absent / null), and whose skins map slot names to attachment objects.  Any other attribute is free.
-/
namespace Spine
open JVal
variable {F : Type}

/-- an optional string attribute: absent, null or a string -/
def OptStr (d : Dict (JVal F)) (k : Str) : Option Str → Prop
  | some s => Dict.get? d k = some (.str s)
  | none => Dict.get? d k = none ∨ Dict.get? d k = some .null

structure BoneV (F : Type) where
  raw : Dict (JVal F)
  name : Str
  parent : Option Str
  hname : Dict.get? raw s!!"name" = some (.str name)
  hparent : OptStr raw s!!"parent" parent

structure SlotV (F : Type) where
  raw : Dict (JVal F)
  name : Str
  bone : Option Str
  hname : Dict.get? raw s!!"name" = some (.str name)
  hbone : OptStr raw s!!"bone" bone

structure IkV (F : Type) where
  raw : Dict (JVal F)
  name : Str
  bones : List Str
  target : Option Str
  hname : Dict.get? raw s!!"name" = some (.str name)
  hbones : Dict.get? raw s!!"bones" = some (.list (bones.map .str))
  htarget : OptStr raw s!!"target" target

/-- an attachment of a skin, with its key -/
structure AttV (F : Type) where
  key : Str
  raw : Dict (JVal F)
  path : Option Str
  name : Option Str
  hpath : OptStr raw s!!"path" path
  hname : OptStr raw s!!"name" name

/-- the image an attachment uses: its path if there is one, else its name, else its key -/
def AttV.image (a : AttV F) : Str :=
  match a.path, a.name with
  | some (c :: p), _ => c :: p
  | _, some (c :: n) => c :: n
  | _, _ => a.key

structure SkinV (F : Type) where
  raw : Dict (JVal F)
  entries : List (Str × List (AttV F))
  hentries : Dict.get? raw s!!"attachments" = some (.dict (entries.map (fun e => (e.1, .dict (e.2.map (fun a => (a.key, .dict a.raw)))))))

/-- the attachments a skin has for a slot -/
def SkinV.forSlot (s : SkinV F) (n : Str) : List (AttV F) := (Dict.get? s.entries n).getD []

structure DocV (F : Type) where
  raw : Dict (JVal F)
  bones : List (BoneV F)
  slots : List (SlotV F)
  iks : List (IkV F)
  skins : List (SkinV F)
  hbones : Dict.get? raw s!!"bones" = some (.list (bones.map (fun b => .dict b.raw)))
  hslots : Dict.get? raw s!!"slots" = some (.list (slots.map (fun b => .dict b.raw))) ∨
    (Dict.get? raw s!!"slots" = none ∧ slots = [])
  hiks : Dict.get? raw s!!"ik" = some (.list (iks.map (fun b => .dict b.raw))) ∨
    (Dict.get? raw s!!"ik" = none ∧ iks = [])
  hskins : Dict.get? raw s!!"skins" = some (.list (skins.map (fun s => .dict s.raw)))

end Spine
