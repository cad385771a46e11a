import Verif.Hrc.Schemes
import Verif.Hrc.BodySpec
/-! C62: the body of a scheme, read in a settled library. -/
namespace Verif.Hrc
open Verif.Keywords (KW)

variable {W : World} {loadF : Lib → Name → Option Lib} {L : Lib} {t : Name}

theorem qualify_settled (hs : Ready L t) (n : Name) (k : Kind) : qualify loadF n k L = some (meaning L k t n, L) :=
  C26_resolution loadF L hs.flags t hs.cur n k (fun i hi => hs.all i (hs.flags.imports t i hi)) (fun _ h => hs.all _ h)

theorem nameRegion_settled (hs : Ready L t) (n : Name) : nameRegion loadF n L = some ((L.look t).region n, L) := by
  unfold nameRegion getNCRegion
  show _ = some ((if n = [] then none else (meaning L .region t n).bind fun q => if isDefault q then none else L.findReg q), L)
  split
  · rfl
  · have := qualify_settled (loadF := loadF) hs n .region
    unfold qualify at this
    rw [this]
    cases meaning L .region t n with
    | none => rfl
    | some q =>
      dsimp only [Option.bind]
      cases L.findReg q with
      | none => simp
      | some i => simp

theorem attrRegion_settled (hs : Ready L t) (el : Elem) (key : Name) : attrRegion loadF el key L = some ((L.look t).attr el key, L) := by
  unfold attrRegion Look.attr
  cases el.attr? key with
  | none => rfl
  | some v => exact nameRegion_settled hs v

theorem expandText_settled (hs : Ready L t) (v : Name) : expandText loadF v L = some ((L.look t).text v, L) :=
  C25_entities_in_type loadF L hs.flags t hs.cur hs.all v

theorem each_settled {α β : Type} {f : α → M β} {g : α → β} {L : Lib} (l : List α) (h : ∀ a ∈ l, f a L = some (g a, L)) : each f l L = some (l.map g, L) := by
  induction l with
  | nil => rfl
  | cons a r ih =>
    unfold each
    rw [run_bind (h a (by simp)), run_bind (ih fun x hx => h x (by simp [hx]))]
    rfl

theorem hexes : (List.range SLOTS).map hexDigit = "0123456789abcdef".toList.map Char.toNat := by decide +kernel

theorem slotRegions_settled (hs : Ready L t) (el : Elem) : slotRegions loadF el L = some ((L.look t).slots el (lit "region"), L) := by
  unfold slotRegions Look.slots
  rw [each_settled (g := fun i => (L.look t).attr el (lit "region" ++ [hexDigit i])) _ (fun i _ => attrRegion_settled hs el _), ← hexes, List.map_map]
  rfl

theorem namedRegions_settled (hs : Ready L t) (names : List Name) : namedRegions loadF names L = some ((L.look t).named names, L) := by
  unfold namedRegions Look.named
  refine each_settled (g := fun i => (names[i]?).bind (L.look t).region) _ fun i _ => ?_
  cases names[i]? with
  | none => rfl
  | some v => exact nameRegion_settled hs v

theorem pairRegions_settled (hs : Ready L t) (el : Elem) : ∃ prs, pairRegions loadF el L = some (prs, L) ∧
    prs.map (·.1) = (L.look t).slots el (lit "region0") ∧ prs.map (·.2) = (L.look t).slots el (lit "region1") := by
  have : pairRegions loadF el L = some ((List.range SLOTS).map fun i => ((L.look t).attr el (lit "region0" ++ [hexDigit i]),
      (L.look t).attr el (lit "region1" ++ [hexDigit i])), L) := by
    unfold pairRegions
    refine each_settled (g := fun i => ((L.look t).attr el (lit "region0" ++ [hexDigit i]), (L.look t).attr el (lit "region1" ++ [hexDigit i]))) _ fun i _ => ?_
    rw [run_bind (attrRegion_settled hs el _), run_bind (attrRegion_settled hs el _)]
    rfl
  refine ⟨_, this, ?_, ?_⟩
  · unfold Look.slots; rw [← hexes, List.map_map, List.map_map]; rfl
  · unfold Look.slots; rw [← hexes, List.map_map, List.map_map]; rfl

theorem virtuals (l : List Elem) : l.filterMap virtualOf =
    (l.filter fun v => v.tag = lit "virtual" ∧ v.attr (lit "scheme") ≠ [] ∧ v.attr (lit "subst-scheme") ≠ []).map fun v =>
      ⟨⟨some (v.attr (lit "scheme")), none⟩, ⟨some (v.attr (lit "subst-scheme")), none⟩⟩ := by
  induction l with
  | nil => rfl
  | cons a r ih =>
    rw [List.filterMap_cons, List.filter_cons, ih]
    unfold virtualOf
    by_cases h1 : a.tag = lit "virtual"
    · by_cases h2 : a.attr (lit "scheme") = []
      · simp [h1, h2]
      · by_cases h3 : a.attr (lit "subst-scheme") = []
        · simp [h1, h3]
        · simp [h1, h2, h3]
    · simp [h1]

theorem inheritNode_settled (hs : Ready L t) (el : Elem) : inheritNode loadF el L = some (readInherit (L.look t) el, L) := by
  unfold inheritNode readInherit
  split
  · rfl
  · rw [run_bind (qualify_settled hs _ _), virtuals]
    rfl

theorem regexpNode_settled (hs : Ready L t) (el : Elem) : regexpNode W loadF el L = some (readRegexp W (L.look t) el, L) := by
  unfold regexpNode readRegexp matchText
  dsimp only
  generalize (if el.attr (lit "match") = [] then el.text else el.attr (lit "match")) = v
  split
  · rfl
  · rw [run_bind (expandText_settled hs v)]
    cases compile W.ctx ((L.look t).text v) with
    | none => rfl
    | some e =>
      dsimp only
      rw [run_bind (attrRegion_settled hs el _), run_bind (slotRegions_settled hs el), run_bind (namedRegions_settled hs _)]
      unfold withFirst
      cases (L.look t).attr el (lit "region") <;> rfl

theorem edge_eq (el : Elem) (tag : Name) : blockKid el tag = edge el tag := rfl

theorem edgeText_eq (el : Elem) (tag : Name) : blockText el tag = edgeText el tag := by
  unfold blockText edgeText
  rw [edge_eq]
  cases edge el tag with
  | none => rfl
  | some v =>
    dsimp only
    cases v.attr? (lit "match") <;> rfl

theorem kidRegions_settled (hs : Ready L t) (kid : Option Elem) (r : Option Nat) (rs : List (Option Nat)) :
    kidRegions loadF kid r rs L = some ((r.or (kid.bind fun v => (L.look t).attr v (lit "region")),
      match kid with | some v => (L.look t).slots v (lit "region") | none => rs), L) := by
  unfold kidRegions
  cases kid with
  | none => cases r <;> rfl
  | some v =>
    dsimp only
    have : kidRegion loadF v r L = some (r.or ((L.look t).attr v (lit "region")), L) := by
      unfold kidRegion
      cases r with
      | none =>
        rw [if_pos (show (none : Option Nat).isNone = true from rfl), attrRegion_settled hs v]
        cases (L.look t).attr v (lit "region") <;> rfl
      | some x => rfl
    rw [run_bind this, run_bind (slotRegions_settled hs v)]
    rfl

theorem firstOf_or (a b c : Option Nat) : (a.or b).or c = firstOf [a, b, c] := by
  cases a <;> cases b <;> cases c <;> rfl

theorem blockNode_settled (hs : Ready L t) (el : Elem) : blockNode W loadF el L = some (readBlock W (L.look t) el, L) := by
  unfold blockNode readBlock
  dsimp only
  rw [edgeText_eq, edgeText_eq]
  split
  · rfl
  · rw [run_bind (expandText_settled hs _)]
    cases compile W.ctx ((L.look t).text (edgeText el (lit "start"))) with
    | none => rfl
    | some e =>
      dsimp only
      rw [run_bind (expandText_settled hs _)]
      cases compile { W.ctx with back := some (bracketNames W.ctx ((L.look t).text (edgeText el (lit "start")))) } ((L.look t).text (edgeText el (lit "end"))) with
      | none => rfl
      | some e' =>
        dsimp only
        have : ∀ names namesE, blockRegions loadF el names namesE L = some ((firstOf [(L.look t).attr el (lit "region"), (edge el (lit "start")).bind fun v => (L.look t).attr v (lit "region"),
          (edge el (lit "end")).bind fun v => (L.look t).attr v (lit "region")], edgeSlots (L.look t) el (lit "start") (lit "region0"),
          edgeSlots (L.look t) el (lit "end") (lit "region1"), (L.look t).named names, (L.look t).named namesE), L) := by
          intro names namesE
          unfold blockRegions
          obtain ⟨prs, p1, p2, p3⟩ := pairRegions_settled (loadF := loadF) hs el
          rw [run_bind (attrRegion_settled hs el _), run_bind p1, run_bind (kidRegions_settled hs _ _ _)]
          dsimp only
          rw [run_bind (namedRegions_settled hs _), run_bind (kidRegions_settled hs _ _ _)]
          dsimp only
          rw [run_bind (namedRegions_settled hs _), p2, p3, edge_eq, edge_eq, firstOf_or]
          rfl
        rw [run_bind (this _ _)]
        rfl

theorem addKeywords_settled (hs : Ready L t) (mc : Bool) (r : Nat) (num : Nat) : ∀ (l : List Elem) (kws : List KW),
    kws.length + (l.filter fun k => isWord k && decide (k.attr (lit "name") ≠ [])).length ≤ num →
    addKeywords W loadF mc (some r) l (filled W.ctx mc num kws) L = some (filled W.ctx mc num (kws ++
      (l.filter fun v => (v.tag = lit "word" ∨ v.tag = lit "symb") ∧ v.attr (lit "name") ≠ []).map fun v =>
        ⟨v.attr (lit "name"), if v.attr (lit "region") = [] then some r else (L.look t).attr v (lit "region"), v.tag = lit "symb", none⟩), L) := by
  intro l
  induction l with
  | nil => intro kws _; rw [List.filter_nil, List.map_nil, List.append_nil]; rfl
  | cons a l ih =>
    intro kws hn
    unfold addKeywords
    have hw : isWord a = decide (a.tag = lit "word" ∨ a.tag = lit "symb") := by simp [isWord]
    by_cases h1 : isWord a = true
    · rw [if_pos h1]
      have h1' : a.tag = lit "word" ∨ a.tag = lit "symb" := by rw [hw] at h1; simpa using h1
      by_cases h2 : a.attr (lit "name") = []
      · rw [if_pos h2, List.filter_cons, if_neg (by simp [h2])]
        refine ih kws ?_
        rwa [List.filter_cons, if_neg (by simp [h2])] at hn
      · rw [if_neg h2, List.filter_cons, if_pos (by simp [h1', h2])]
        rw [List.filter_cons, if_pos (by simp [h1, h2]), List.length_cons] at hn
        have hr : wordRegion loadF a (some r) L = some (if a.attr (lit "region") = [] then some r else (L.look t).attr a (lit "region"), L) := by
          unfold wordRegion
          split
          · rfl
          · exact attrRegion_settled hs a _
        rw [run_bind hr]
        generalize hx : (if a.attr (lit "region") = [] then some r else (L.look t).attr a (lit "region")) = x
        have hadd : (filled W.ctx mc num kws).add W.ctx mc ⟨a.attr (lit "name"), x, a.tag = lit "symb", none⟩ =
            some (filled W.ctx mc num (kws ++ [⟨a.attr (lit "name"), x, a.tag = lit "symb", none⟩])) := by
          unfold KwArr.add
          rw [if_pos (by show kws.length < num; omega)]
          unfold filled addFirst
          simp [List.any_append, Bool.or_assoc]
        rw [hadd]
        dsimp only
        rw [ih _ (by simp only [List.length_append, List.length_cons, List.length_nil]; omega), List.map_cons, List.append_assoc, hx]
        rfl
    · rw [if_neg h1]
      have h1' : ¬ (a.tag = lit "word" ∨ a.tag = lit "symb") := by rw [hw] at h1; simpa using h1
      rw [List.filter_cons, if_neg (by simp only [h1', false_and, decide_false]; simp)]
      refine ih kws ?_
      rwa [List.filter_cons, if_neg (by simp [h1])] at hn

theorem keywordsNode_settled (hs : Ready L t) (el : Elem) : keywordsNode W loadF el L = some (readKeywords W (L.look t) el, L) := by
  unfold keywordsNode readKeywords
  rw [run_bind (attrRegion_settled hs el _)]
  cases (L.look t).attr el (lit "region") with
  | none => rfl
  | some r =>
    rw [if_neg (by simp)]
    have hd : readWordDiv W loadF el L = some (if el.attr (lit "worddiv") = [] then none else wordDiv W.ctx ((L.look t).text (el.attr (lit "worddiv"))), L) := by
      unfold readWordDiv
      split
      · rfl
      · rw [run_bind (expandText_settled hs _)]; rfl
    rw [run_bind hd]
    dsimp only [Option.map]
    generalize hmc : decide (el.attr (lit "ignorecase") ≠ lit "yes") = mc
    have := addKeywords_settled (W := W) (loadF := loadF) hs mc r (keywordCount el) el.kids [] (by simp [keywordCount])
    have e : filled W.ctx mc (keywordCount el) [] = ⟨keywordCount el, [], fun _ => false, 2147483647⟩ := rfl
    rw [e] at this
    rw [run_bind this, List.nil_append]
    rfl

theorem nodeOf_settled (hs : Ready L t) (el : Elem) : nodeOf W loadF el L = some (readNode W (L.look t) el, L) := by
  unfold nodeOf readNode
  split
  · exact inheritNode_settled hs el
  · split
    · exact regexpNode_settled hs el
    · split
      · exact blockNode_settled hs el
      · split
        · exact keywordsNode_settled hs el
        · rfl

theorem look_push (q : Name) (nd : SNode) : (L.push q nd).look t = L.look t := by
  have hh : ∀ k n, (L.push q nd).has k n = L.has k n := by
    intro k n
    cases k with
    | region => rfl
    | entity => rfl
    | scheme =>
      have : ∀ l : List Sch, (l.any fun s => s.name = n) = (l.map (·.name)).any fun x => x = n := by
        intro l; rw [List.any_map]; rfl
      show (L.push q nd).schemes.any _ = L.schemes.any _
      rw [this, this, show (L.push q nd).schemes = change (· ++ [nd]) q L.schemes from rfl, change_names]
  have hm : ∀ k n, meaning (L.push q nd) k t n = meaning L k t n := by
    intro k n
    have he : (L.push q nd).has k = L.has k := funext (hh k)
    unfold meaning
    rw [he]
    rfl
  unfold Lib.look
  simp only [hm]
  rfl

theorem settled_push (q : Name) (nd : SNode) (hs : Ready L t) : Ready (L.push q nd) t :=
  ⟨⟨hs.flags.started, hs.flags.cur, hs.flags.imports, hs.flags.plain⟩, hs.cur, hs.all⟩

/-- C62. The body of a scheme, read when all types its names may come from are there: the scheme gets, in the order of the document, the nodes its
elements stand for – faulty elements are skipped, nothing else – and nothing else changes. -/
theorem C62_body_is_its_elements (W : World) (loadF : Lib → Name → Option Lib) (L : Lib) (t : Name) (hs : Ready L t) (q : Name) (kids : List Elem) :
    parseBody W loadF q kids L = some { L with schemes := L.schemes.map fun s =>
      if s.name = q then { s with nodes := s.nodes ++ kids.filterMap (readNode W (L.look t)) } else s } := by
  induction kids generalizing L with
  | nil =>
    have : (L.schemes.map fun s => if s.name = q then { s with nodes := s.nodes ++ [].filterMap (readNode W (L.look t)) } else s) = L.schemes := by
      conv => rhs; rw [← List.map_id L.schemes]
      apply List.map_congr_left
      intro s _
      split
      · simp
      · rfl
    rw [this]
    rfl
  | cons a r ih =>
    unfold parseBody
    rw [nodeOf_settled hs, List.filterMap_cons]
    cases readNode W (L.look t) a with
    | none => exact ih L hs
    | some nd =>
      dsimp only
      rw [ih _ (settled_push q nd hs), look_push]
      congr 1
      unfold Lib.push
      congr 1
      rw [List.map_map]
      apply List.map_congr_left
      intro s _
      dsimp only [Function.comp]
      by_cases h : s.name = q
      · simp [h]
      · simp [h]

theorem own_name {t n q : Name} : qualifyOwn t n = some q ↔ OwnName t n q := by
  have hidx : ∀ l : Name, match l.idxOf? 58 with | some k => 58 ∈ l ∧ l.take k = owner l | none => 58 ∉ l := by
    intro l
    induction l with
    | nil => simp
    | cons c r ih =>
      rw [List.idxOf?_cons]
      by_cases h : c = 58
      · simp [h, owner]
      · rw [if_neg (by simpa using h)]
        cases hr : r.idxOf? 58 with
        | none => rw [hr] at ih; simp at ih ⊢; exact ⟨fun e => h e.symm, ih⟩
        | some k => rw [hr] at ih; simp [owner, h] at ih ⊢; exact ⟨.inr ih.1, ih.2⟩
  have := hidx n
  unfold qualifyOwn colon OwnName
  cases hk : n.idxOf? 58 with
  | none => rw [hk] at this; simp [this, eq_comm]
  | some k =>
    rw [hk] at this
    obtain ⟨h1, h2⟩ := this
    dsimp only
    rw [h2]
    split
    · rename_i h; simp [h1, h, eq_comm]
    · rename_i h; simp [h1, h]

theorem skipped_iff (W : World) (t : Name) (el : Elem) : leftOut W t el = true ↔ Skipped W t el := by
  unfold leftOut Skipped
  cases W.param t (el.attr (lit "if")) <;> cases W.param t (el.attr (lit "unless")) <;> simp

open Classical in
/-- C62. A scheme element read in such a library: if its name is good and new, the scheme is added with the nodes its elements stand for (none if
its `if`/`unless` condition fails); the scheme itself can be referred to from its body. -/
theorem C62_scheme_is_its_elements (W : World) (loadF : Lib → Name → Option Lib) (L : Lib) (t : Name) (hs : Ready L t) (el : Elem) (q : Name)
    (hq : OwnName t (el.attr (lit "name")) q) (hn : ∀ s ∈ L.schemes, s.name ≠ q) :
    addItem W loadF t L (.scheme el) = some { L with schemes := L.schemes ++ [⟨q, t, if Skipped W t el then []
      else el.kids.filterMap (readNode W (({ L with schemes := L.schemes ++ [⟨q, t, []⟩] } : Lib).look t))⟩] } := by
  show addScheme W loadF t el L = _
  unfold addScheme
  rw [own_name.2 hq]
  dsimp only
  rw [if_neg (fun h => by obtain ⟨s, h1, h2⟩ := has_scheme.1 h; exact hn s h1 h2)]
  by_cases hk : leftOut W t el = true
  · rw [if_pos hk, if_pos ((skipped_iff ..).1 hk)]
  · rw [if_neg hk, if_neg (fun h => hk ((skipped_iff ..).2 h))]
    have hs1 : Ready ({ L with schemes := L.schemes ++ [⟨q, t, []⟩] } : Lib) t :=
      ⟨⟨hs.flags.started, hs.flags.cur, hs.flags.imports, hs.flags.plain⟩, hs.cur, hs.all⟩
    rw [C62_body_is_its_elements W loadF _ t hs1]
    congr 2
    dsimp only
    rw [List.map_append]
    congr 1
    · conv => rhs; rw [← List.map_id L.schemes]
      apply List.map_congr_left
      intro s h
      rw [if_neg (hn s h)]; rfl
    · simp

/-- C62. A scheme with a name of another type, or one that is taken, is left out. -/
theorem C62_other_schemes_are_left_out (W : World) (loadF : Lib → Name → Option Lib) (L : Lib) (t : Name) (el : Elem)
    (hq : ∀ q, OwnName t (el.attr (lit "name")) q → ∃ s ∈ L.schemes, s.name = q) : addItem W loadF t L (.scheme el) = some L := by
  show addScheme W loadF t el L = _
  unfold addScheme
  cases e : qualifyOwn t (el.attr (lit "name")) with
  | none => rfl
  | some q =>
    dsimp only
    rw [if_pos (has_scheme.2 (hq q (own_name.1 e)))]

end Verif.Hrc
