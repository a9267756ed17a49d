import Verif.Lemmas.Recursion
import Verif.Lemmas.Weak
/- Chains of bones of a document and the recursion limit. -/
set_option linter.unusedSectionVars false
set_option linter.unusedSimpArgs false
namespace Spine
open JVal Graph Container

namespace Graph
variable {T D : Type} [DecidableEq T]

/-- a rope whose first node has no incoming link and comes before the others -/
structure Rooted (g : Graph T D) (rel : Node T D → List Str) (a : Str) (l : List Str) : Prop where
  rope : Rope g rel (a :: l)
  nodup : (a :: l).Nodup
  root : ∀ x, ¬ Rel g rel x a
  first : ∃ pre post, Dict.keys g.nodes = pre ++ a :: post ∧ ∀ x ∈ a :: l, x ∉ pre

theorem Rooted.diverges {g : Graph T D} {rel : Node T D → List Str} {a : Str} {l : List Str} (h : Rooted g rel a l) (hc : Closed g rel)
    {lim : Nat} (hl : lim ≤ l.length) : getNodesByL lim g rel = .error .diverge := by
  obtain ⟨pre, post, h1, h2⟩ := h.first
  exact getNodesByL_rope hc h.rope h.nodup h.root h1 h2 hl

theorem rel_restrict_sub {g : Graph T D} {S : List Str} {a b : Str} (h : Rel (restrict g S) Node.children a b) : Rel g Node.children a b :=
  edge_restrict_sub h

theorem rel_restrict {g : Graph T D} {S : List Str} {a b : Str} (h : Rel g Node.children a b) (ha : a ∉ S) (hb : b ∉ S) :
    Rel (restrict g S) Node.children a b := by
  obtain ⟨n, hn, hm⟩ := h
  obtain ⟨m, h1, _, h3⟩ := (tails_ends (T := T) (D := D)).rel_restrict (S := S) hn ha
  exact ⟨m, h1, by rw [h3]; simp [hm, hb]⟩

theorem Rope.restrict {g : Graph T D} {S : List Str} : ∀ {l : List Str}, Rope g Node.children l → (∀ x ∈ l, x ∉ S) →
    Rope (restrict g S) Node.children l
  | _, .single ⟨n, hn⟩, h => by
    obtain ⟨m, h1, _, h3⟩ := (tails_ends (T := T) (D := D)).rel_restrict (S := S) hn (h _ (by simp))
    exact .single ⟨m, h1⟩
  | _, .cons h1 h2 h3, h =>
    .cons (rel_restrict h1 (h _ (by simp)) (h _ (by simp))) (fun x hx => h2 x (rel_restrict_sub hx))
      (Rope.restrict h3 (fun x hx => h x (by simp [List.mem_cons.1 hx])))

theorem Rooted.restrict {g : Graph T D} {S : List Str} {a : Str} {l : List Str} (h : Rooted g Node.children a l) (hS : ∀ x ∈ a :: l, x ∉ S) :
    Rooted (restrict g S) Node.children a l := by
  refine ⟨h.rope.restrict hS, h.nodup, fun x hx => h.root x (rel_restrict_sub hx), ?_⟩
  obtain ⟨pre, post, h1, h2⟩ := h.first
  refine ⟨pre.filter (fun x => x ∉ S), post.filter (fun x => x ∉ S), ?_, ?_⟩
  · have := hS a (by simp)
    rw [keys_restrict, h1, List.filter_append, List.filter_cons]
    simp [this]
  · intro x hx hm
    exact h2 x hx (List.mem_filter.1 hm).1

end Graph

variable {F : Type} [PyRt F]

theorem AnimData.BoneChain.sub {a : AnimData F} {l : List (Bone F)} (h : a.BoneChain l) : ∀ b ∈ l, b ∈ a.bones := by
  induction h with
  | single h => intro b hb; simp only [List.mem_cons, List.not_mem_nil, or_false] at hb; subst hb; exact h
  | cons h1 h2 _ _ ih =>
    intro b hb
    rcases List.mem_cons.1 hb with rfl | hb
    · rw [h1]; simp [h2]
    · exact ih b hb

theorem nodup_of_map {α β : Type} {f : α → β} {l : List α} (h : (l.map f).Nodup) : l.Nodup := by
  rw [List.nodup_iff_pairwise_ne, List.pairwise_map] at h
  rw [List.nodup_iff_pairwise_ne]
  exact h.imp (fun hne e => hne (by rw [e]))

/-- the names of a chain are different: each bone comes after the one before it -/
theorem AnimData.BoneChain.sublist {a : AnimData F} (hn : (a.bones.map (·.name)).Nodup) : ∀ {l : List (Bone F)}, a.BoneChain l →
    List.Sublist l a.bones
  | _, .single h => by simpa using h
  | _, .cons (b := b) (c := c) (l := l) (pre := pre) (post := post) h1 h2 _ h4 => by
    have ih := AnimData.BoneChain.sublist hn h4
    have hb : a.bones.Nodup := nodup_of_map hn
    have hc : c ∉ pre := by
      intro hc
      rw [h1, List.nodup_append] at hb
      exact hb.2.2 c hc c (by simp) rfl
    have h5 : List.Sublist (c :: l) (c :: post) := by
      rw [h1] at ih
      obtain ⟨l1, l2, e1, e2, e3⟩ := List.sublist_append_iff.1 ih
      cases l1 with
      | nil => rw [List.nil_append] at e1; rw [e1]; exact e3
      | cons x l1 =>
        rw [List.cons_append] at e1
        injection e1 with e1 _
        exact absurd (e2.subset (by simp)) (e1 ▸ hc)
    rw [h1]
    exact List.Sublist.append (l₁ := [b]) (by simpa using h2) h5

namespace GShape

theorem link_bone {sh : GShape F} (h0 : sh.iks = []) {x n : Str} (h : Link sh x (graphId .bone n)) :
    ∃ pre b post, sh.bones = pre ++ b :: post ∧ b.name = n ∧ b.parent ∈ pre.map (·.name) ∧ x = graphId .bone b.parent := by
  generalize hy : graphId .bone n = y at h
  cases h with
  | @bone pre b post h1 h2 => exact ⟨pre, b, post, h1, (graphId_inj hy).2.symm, h2, rfl⟩
  | ikBone h _ _ => rw [h0] at h; cases h
  | _ => cases (graphId_inj hy).1

end GShape

theorem All₂.split_left {α β : Type} {R : α → β → Prop} : ∀ {p : List α} {q : List α} {m : List β}, All₂ R (p ++ q) m →
    ∃ m1 m2, m = m1 ++ m2 ∧ All₂ R p m1 ∧ All₂ R q m2
  | [], q, m, h => ⟨[], m, rfl, .nil, h⟩
  | x :: p, q, _, .cons h1 h2 => by
    obtain ⟨m1, m2, rfl, e1, e2⟩ := All₂.split_left h2
    exact ⟨_ :: m1, m2, rfl, .cons h1 e1, e2⟩

theorem All₂.split_right {α β : Type} {R : α → β → Prop} : ∀ {p q : List β} {m : List α}, All₂ R m (p ++ q) →
    ∃ m1 m2, m = m1 ++ m2 ∧ All₂ R m1 p ∧ All₂ R m2 q
  | [], q, m, h => ⟨[], m, rfl, .nil, h⟩
  | x :: p, q, _, .cons h1 h2 => by
    obtain ⟨m1, m2, rfl, e1, e2⟩ := All₂.split_right h2
    exact ⟨_ :: m1, m2, rfl, .cons h1 e1, e2⟩

namespace Editor
variable {e : Editor F}

/-- what is known of the graph right after loading -/
theorem load_shape {doc : JVal F} (hp : doc.Proper) (h : load doc = .ok e) :
    ∃ sh, GShape.Built sh e.graph ∧ ShapeOf e.doc.version.is38 e.data sh := by
  have hw := weak_load hp h
  obtain ⟨sh, h1, h2⟩ := GShape.create_built (load_ok h).2.2
  exact ⟨sh, h2, GShape.read_toJson e.doc hw.ecore.bones hw.distinct hw.sane h1⟩

theorem shape_names {b : Bool} {a : AnimData F} {sh : GShape F} (h : ShapeOf b a sh) : sh.bones.map (·.name) = a.bones.map (·.name) := by
  have := h.bones
  generalize a.bones = l at this
  generalize sh.bones = m at this
  induction this with
  | nil => rfl
  | cons h1 _ ih => simp [ih, h1.1]

theorem shape_iks {b : Bool} {a : AnimData F} {sh : GShape F} (h : ShapeOf b a sh) (h0 : a.ik = []) : sh.iks = [] := by
  have := h.iks
  rw [h0] at this
  generalize sh.iks = m at this
  cases this; rfl

/-- the link of a bone to the parent listed before it, and no other link to it -/
theorem bone_link {doc : JVal F} (hp : doc.Proper) (h : load doc = .ok e) (h0 : e.data.ik = []) {b c : Bone F} {pre post : List (Bone F)}
    (h1 : e.data.bones = pre ++ c :: post) (h2 : b ∈ pre) (h3 : c.parent = some b.name) (x : Str) :
    Edge e.graph x (graphId .bone c.name) ↔ x = graphId .bone b.name := by
  obtain ⟨sh, hb, hs⟩ := load_shape hp h
  have hn := hb.ok.bones
  have h1' := hs.bones
  rw [h1] at h1'
  obtain ⟨m1, m2, em, a1, a2⟩ := All₂.split_left h1'
  cases a2 with
  | @cons _ g _ m2 hg a2 =>
    rw [hb.edge]
    constructor
    · intro hl
      obtain ⟨p1, g1, q1, e1, e2, _, rfl⟩ := GShape.link_bone (shape_iks hs h0) hl
      have : g1 = g := nodup_map_inj hn (by rw [e1]; simp) (by rw [em]; simp) (e2.trans hg.1.symm)
      rw [this, hg.2.2, h3]; rfl
    · rintro rfl
      have : GShape.Link sh (graphId .bone g.parent) (graphId .bone g.name) := by
        refine GShape.Link.bone em ?_
        rw [hg.2.2, h3]
        obtain ⟨g', hg', h'⟩ := a1.left h2
        exact List.mem_map.2 ⟨g', hg', h'.1⟩
      rw [hg.1, hg.2.2, h3] at this
      exact this

theorem filter_cons_split {α : Type} {p : α → Bool} : ∀ {l : List α} {y : α} {r : List α}, l.filter p = y :: r →
    ∃ pre post, l = pre ++ y :: post ∧ ∀ x ∈ pre, p x = false
  | [], y, r, h => by cases h
  | x :: l, y, r, h => by
    by_cases hx : p x = true
    · rw [List.filter_cons_of_pos hx] at h
      injection h with h _
      exact ⟨[], l, by rw [h]; rfl, by simp⟩
    · rw [List.filter_cons_of_neg hx] at h
      obtain ⟨pre, post, e1, e2⟩ := filter_cons_split h
      refine ⟨x :: pre, post, by rw [e1]; rfl, ?_⟩
      intro z hz
      rcases List.mem_cons.1 hz with rfl | hz
      · simpa using hx
      · exact e2 z hz

/-- a chain of bones from the first bone of a document without ik is a rope of its graph -/
theorem bones_rooted {doc : JVal F} (hp : doc.Proper) (h : load doc = .ok e) (h0 : e.data.ik = []) {r : Bone F} {l rest : List (Bone F)}
    (hc : e.data.BoneChain (r :: l)) (hr : e.data.bones = r :: rest) :
    Rooted e.graph Node.children (graphId .bone r.name) (l.map (fun b => graphId .bone b.name)) := by
  obtain ⟨sh, hb, hs⟩ := load_shape hp h
  have hnd : (e.data.bones.map (·.name)).Nodup := by rw [← shape_names hs]; exact hb.ok.bones
  refine ⟨?_, ?_, ?_, ?_⟩
  · have key : ∀ l : List (Bone F), e.data.BoneChain l → Rope e.graph Node.children (l.map (fun b => graphId .bone b.name)) := by
      intro l hc
      induction hc with
      | @single b hm =>
        refine .single ?_
        rw [hb.has_bone]
        have : b.name ∈ sh.bones.map (·.name) := by rw [shape_names hs]; exact List.mem_map.2 ⟨b, hm, rfl⟩
        exact List.mem_map.1 this
      | cons h1 h2 h3 _ ih =>
        refine .cons ((bone_link hp h h0 h1 h2 h3 _).2 rfl) (fun x hx => (bone_link hp h h0 h1 h2 h3 x).1 hx) ih
    exact key _ hc
  · have : ((r :: l).map (fun b => graphId .bone b.name)).Nodup := by
      have h1 := hnd.sublist ((AnimData.BoneChain.sublist hnd hc).map (·.name))
      have h2 := nodup_map_graphId .bone h1
      rwa [List.map_map] at h2
    simpa using this
  · intro x hx
    have hx' : Edge e.graph x (graphId .bone r.name) := hx
    rw [hb.edge] at hx'
    obtain ⟨p1, g1, q1, e1, e2, e3, _⟩ := GShape.link_bone (shape_iks hs h0) hx'
    have h1 := shape_names hs
    rw [hr, e1] at h1
    cases p1 with
    | nil => cases e3
    | cons z p1 =>
      simp only [List.cons_append, List.map_cons, List.cons.injEq] at h1
      have := hb.ok.bones
      rw [e1] at this
      simp only [List.cons_append, List.map_cons] at this
      refine (List.nodup_cons.1 this).1 ?_
      rw [h1.1, ← e2]
      exact List.mem_map.2 ⟨g1, by simp, rfl⟩
  · have hno := hb.nodesOf .bone (by decide) (by decide)
    simp only [reduceCtorEq, if_true, if_false, List.append_nil] at hno
    obtain ⟨g0, gs, hgs⟩ : ∃ g0 gs, sh.bones = g0 :: gs ∧ g0.name = r.name := by
      have := hs.bones
      rw [hr] at this
      cases hsb : sh.bones with
      | nil => rw [hsb] at this; cases this
      | cons g0 gs =>
        rw [hsb] at this
        cases this with
        | cons h1 _ => exact ⟨g0, gs, rfl, h1.1⟩
    rw [hgs.1] at hno
    simp only [nodesOf, List.zipIdx_cons, List.map_cons] at hno
    cases hf : e.graph.nodes.filter (fun p => p.2.ntype = .bone) with
    | nil => rw [hf] at hno; cases hno
    | cons y ys =>
      rw [hf] at hno
      simp only [List.map_cons, List.cons.injEq, Prod.mk.injEq] at hno
      obtain ⟨pre, post, e1, e2⟩ := filter_cons_split hf
      have hcore := ecore_load h
      refine ⟨pre.map (·.1), post.map (·.1), ?_, ?_⟩
      · unfold Dict.keys
        rw [e1, List.map_append, List.map_cons, hno.1.1, hgs.2]
      · intro x hx hm
        obtain ⟨p, hpm, rfl⟩ := List.mem_map.1 hm
        have hx' : ∃ n, p.1 = graphId .bone n := by
          rcases List.mem_cons.1 hx with h | h
          · exact ⟨_, h⟩
          · obtain ⟨b, _, hb⟩ := List.mem_map.1 h; exact ⟨_, hb.symm⟩
        obtain ⟨n, hn⟩ := hx'
        have hg : getNode e.graph p.1 = some p.2 := Dict.get?_of_mem hcore.core.wf.keys_nodup (by rw [e1]; simp [hpm])
        rw [hn] at hg
        have := e2 p hpm
        rw [hcore.core.typed' hg] at this
        simp at this

theorem loose_bones {S : List Str} (hS : Loose S) (n : Str) : graphId .bone n ∉ S := by
  intro h
  obtain ⟨t, m, h1, _, h3⟩ := hS _ h
  exact h1 (graphId_inj h3).1.symm

/-- a chain of bones that is longer than the limit -/
theorem clean_chain {doc : JVal F} (hp : doc.Proper) (h : load doc = .ok e) (h0 : e.data.ik = []) {r : Bone F} {l rest : List (Bone F)}
    (hc : e.data.BoneChain (r :: l)) (hr : e.data.bones = r :: rest) {lim : Nat} (hl : lim ≤ l.length) {v : List Str × List Str}
    (hok : (clean e).1 = .ok v) : (cleanL lim e).1 = .error .diverge := by
  have hrt := bones_rooted hp h h0 hc hr
  have hcore := (ecore_load h).core
  unfold clean at hok
  unfold cleanL
  cases hu : AnimData.unused e.data with
  | error x => rw [hu] at hok; cases hok
  | ok q =>
    obtain ⟨slots, atts⟩ := q
    rw [hu] at hok
    simp only at hok ⊢
    have hcg : (cleanGraphL lim slots atts e.graph).1 = .error .diverge := by
      unfold cleanGraph at hok
      unfold cleanGraphL
      obtain ⟨r1, S1, h1, l1⟩ := removeNamed_loose .slot (by decide) (by decide) (setList F slots) hcore.wf
      rw [h1] at hok ⊢
      cases r1 with
      | error x => cases hok
      | ok _ =>
        have c1 := hcore.restrict S1
        obtain ⟨r2, S2, h2, l2⟩ := removeNamed_loose .attachment (by decide) (by decide) (setList F atts) c1.wf
        simp only [h2] at hok ⊢
        cases r2 with
        | error x => cases hok
        | ok _ =>
          have c2 := c1.restrict S2
          have hno : ∀ S, Loose S → ∀ x ∈ graphId .bone r.name :: l.map (fun b => graphId .bone b.name), x ∉ S := by
            intro S hS x hx
            rcases List.mem_cons.1 hx with rfl | hx
            · exact loose_bones hS _
            · obtain ⟨b, _, rfl⟩ := List.mem_map.1 hx; exact loose_bones hS _
          have hd := ((hrt.restrict (hno S1 l1)).restrict (hno S2 l2)).diverges c2.wf.closed_children (lim := lim) (by simpa using hl)
          have hd : tailsL lim (restrict (restrict e.graph S1) S2) = .error .diverge := hd
          simp only [removeLeafsOfTypeL, removeLoop, endsOfType, hd]
    generalize cleanGraphL lim slots atts e.graph = q at hcg
    obtain ⟨q1, q2⟩ := q
    simp only at hcg
    rw [hcg]

/-! ### short chains of bones -/

theorem link_image {sh : GShape F} {n x : Str} (h : GShape.Link sh (graphId .image n) x) : False := by
  generalize hy : graphId .image n = y at h
  cases h <;> cases (graphId_inj hy).1

theorem link_att {sh : GShape F} {n x : Str} (h : GShape.Link sh (graphId .attachment n) x) : ∃ m, x = graphId .image m := by
  generalize hy : graphId .attachment n = y at h
  cases h with
  | image => exact ⟨_, rfl⟩
  | _ => cases (graphId_inj hy).1

theorem link_slot {sh : GShape F} {n x : Str} (h : GShape.Link sh (graphId .slot n) x) : ∃ m, x = graphId .attachment m := by
  generalize hy : graphId .slot n = y at h
  cases h with
  | att => exact ⟨_, rfl⟩
  | _ => cases (graphId_inj hy).1

theorem chain_image {sh : GShape F} {n : Str} {l : List Str} (h : Chain (GShape.Link sh) (graphId .image n :: l)) : l.length = 0 := by
  cases h with
  | single => rfl
  | cons h _ => exact (link_image h).elim

theorem chain_att {sh : GShape F} {n : Str} {l : List Str} (h : Chain (GShape.Link sh) (graphId .attachment n :: l)) : l.length ≤ 1 := by
  cases h with
  | single => simp
  | cons h h' =>
    obtain ⟨m, rfl⟩ := link_att h
    have := chain_image h'
    simp only [List.length_cons]; omega

theorem chain_slot {sh : GShape F} {n : Str} {l : List Str} (h : Chain (GShape.Link sh) (graphId .slot n :: l)) : l.length ≤ 2 := by
  cases h with
  | single => simp
  | cons h h' =>
    obtain ⟨m, rfl⟩ := link_slot h
    have := chain_att h'
    simp only [List.length_cons]; omega

theorem chain_bone {b : Bool} {a : AnimData F} {sh : GShape F} (hs : ShapeOf b a sh) (hn : (a.bones.map (·.name)).Nodup) (h0 : sh.iks = [])
    (hnone : ∀ x ∈ a.bones, x.name ≠ s!!"None") :
    ∀ (l : List Str) (x : Bone F), x ∈ a.bones → Chain (GShape.Link sh) (graphId .bone x.name :: l) →
      ∃ bs, a.BoneChain (x :: bs) ∧ l.length ≤ bs.length + 3 := by
  intro l
  induction l with
  | nil => intro x hx _; exact ⟨[], .single hx, by simp⟩
  | cons y l ih =>
    intro x hx hc
    cases hc with
    | cons h h' =>
      generalize hz : graphId .bone x.name = z at h
      cases h with
      | @bone pre c post h1 h2 =>
        have hp := (graphId_inj hz).2
        have hb := hs.bones
        rw [h1] at hb
        obtain ⟨m1, m2, em, a1, a2⟩ := All₂.split_right hb
        cases a2 with
        | @cons y _ m2 _ hg a2 =>
          obtain ⟨p, hpm, hpn⟩ := List.mem_map.1 h2
          obtain ⟨q, hq, hq'⟩ := a1.right hpm
          have hqx : q = x := nodup_map_inj hn (by rw [em]; simp [hq]) hx (by rw [← hq'.1, hpn, hp])
          subst hqx
          obtain ⟨bs, e1, e2⟩ := ih y (by rw [em]; simp) (by rw [hg.1] at h'; exact h')
          have hyp : y.parent = some q.name := by
            have h3 := hg.2.2
            cases hyp : y.parent with
            | none =>
              rw [hyp] at h3
              exact absurd (hp.trans h3) (hnone q hx)
            | some w => rw [hyp] at h3; rw [hp, h3]; rfl
          exact ⟨y :: bs, .cons em hq hyp e1, by simp only [List.length_cons]; omega⟩
      | slot => exact ⟨[], .single hx, by have := chain_slot h'; simp only [List.length_cons, List.length_nil]; omega⟩
      | ikTarget h => rw [h0] at h; cases h
      | _ => cases (graphId_inj hz).1

theorem shallow_bones {doc : JVal F} (hp : doc.Proper) (h : load doc = .ok e) (h0 : e.data.ik = [])
    (hnone : ∀ x ∈ e.data.bones, x.name ≠ s!!"None") {N : Nat} (hN : ∀ l, e.data.BoneChain l → l.length ≤ N) :
    Shallow (N + 4) e.graph := by
  obtain ⟨sh, hb, hs⟩ := load_shape hp h
  have hik := shape_iks hs h0
  intro l hl _ hx
  cases l with
  | nil => simp
  | cons x l =>
    have hl' : Chain (GShape.Link sh) (x :: l) := Chain.mono (fun a b hab => (hb.edge a b).1 hab) hl
    obtain ⟨nd, hnd⟩ := hx x (by simp)
    obtain ⟨ht, n, e1⟩ := (ecore_load h).core.typed x nd hnd
    generalize nd.ntype = t at ht e1
    subst e1
    have hN1 : 1 ≤ N := by
      cases hbs : e.data.bones with
      | nil => exact absurd hbs hs.someBone
      | cons y r => exact hN [y] (.single (by rw [hbs]; simp))
    simp only [NType.five, List.mem_cons, List.not_mem_nil, or_false] at ht
    simp only [List.length_cons]
    rcases ht with rfl | rfl | rfl | rfl | rfl
    · have : n ∈ sh.bones.map (·.name) := List.mem_map.2 ((hb.has_bone n).1 ⟨nd, hnd⟩)
      rw [shape_names hs] at this
      obtain ⟨y, hy, rfl⟩ := List.mem_map.1 this
      obtain ⟨bs, h1, h2⟩ := chain_bone hs (by rw [← shape_names hs]; exact hb.ok.bones) hik hnone l y hy hl'
      have := hN _ h1
      simp only [List.length_cons] at this
      omega
    · have := chain_slot hl'; omega
    · obtain ⟨i, hi, _⟩ := (hb.has_ik n).1 ⟨nd, hnd⟩
      rw [hik] at hi; cases hi
    · have := chain_att hl'; omega
    · have := chain_image hl'; omega

end Editor
end Spine
