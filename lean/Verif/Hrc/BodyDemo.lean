import Verif.Hrc.Bodies
/-! Concrete libraries for C61 and C62. -/
namespace Verif.Hrc

def el (tag : String) (attrs : List (String × String)) (kids : List Elem) : Elem := .mk (lit tag) (attrs.map fun p => (lit p.1, lit p.2)) [] kids

/-- type `t`: a scheme with all kinds of nodes – a block into itself, an inherit of the scheme of another type with a substitution, a faulty expression, an
unknown scheme; type `u`: two schemes, one of which inherits the other -/
def bodyTypes : Name → Option (List TypeDecl)
  | [116] => some [⟨lit "t", [.region (lit "A") none, .region (lit "B") (some (lit "A")), .entity (lit "e") (lit "x"),
      .scheme (el "scheme" [("name", "s")] [
        el "regexp" [("match", "/%e;(y)/"), ("region", "A"), ("region1", "B")] [],
        el "regexp" [("match", "/(x/"), ("region", "A")] [],
        el "block" [("start", "/(?{B}q)/"), ("end", "/\\y{B}/"), ("scheme", "s"), ("region", "B"), ("region00", "A")] [],
        el "block" [("scheme", "none"), ("inner-region", "yes")] [el "start" [("match", "/a/"), ("region", "A")] [], el "end" [("match", "/b/")] []],
        el "inherit" [("scheme", "u:w")] [el "virtual" [("scheme", "u:v"), ("subst-scheme", "r")] []],
        el "keywords" [("region", "A")] [el "word" [("name", "if")] [], el "symb" [("name", "+"), ("region", "B")] [], el "word" [] []]]),
      .scheme (el "scheme" [("name", "r")] [el "regexp" [("match", "/r/"), ("region", "B")] []])]⟩]
  | [117] => some [⟨lit "u", [.region (lit "C") none, .scheme (el "scheme" [("name", "v")] [el "regexp" [("match", "/z/"), ("region0", "C")] []]),
      .scheme (el "scheme" [("name", "w")] [el "inherit" [("scheme", "v")] []])]⟩]
  | _ => none

def bodySrc : World := world bodyTypes

/-- what can be compared of a node -/
inductive Shape where
  | inherit (l : Link) (v : List VEnt)
  | regexp (low : Bool) (cm cn : Nat) (r : Option Nat) (rs rn : List (Option Nat))
  | block (inner : Bool) (l : Link) (cm cn cm' cn' : Nat) (r : Option Nat) (rs re rn rn' : List (Option Nat))
  | keywords (mc : Bool) (kws : List Keywords.KW) (min : Nat) (div : Bool)
deriving DecidableEq

def SNode.shape : SNode → Shape
  | .inherit l v => .inherit l v
  | .regexp n => .regexp n.low n.start.cMatch n.start.cnMatch n.region (n.regions.take 2) (n.regionsn.take 2)
  | .block n => .block n.inner n.link n.start.cMatch n.start.cnMatch n.stop.cMatch n.stop.cnMatch n.region (n.regions.take 2) (n.regione.take 2)
      (n.regionsn.take 2) (n.regionen.take 2)
  | .keywords n => .keywords n.matchCase n.list.kws n.list.minLen n.worddiv.isSome

/-- regions 0 `t:A`, 1 `t:B`, 2 `u:C`. The faulty expression is skipped; the second block keeps its place without a scheme; the reference to `u:w` has loaded
`u` in the middle of `s`; the end of the first block was compiled with the name `B` of its start. -/
example : (acts bodySrc 3 (Lib.init [lit "t", lit "u"]) [.load (lit "t")]).map (fun L => L.schemes.map fun s => (s.name, s.nodes.map SNode.shape)) = some
    [(lit "t:s",
      [.regexp false 2 0 (some 0) [some 0, some 1] [none, none],
       .block false ⟨none, some (lit "t:s")⟩ 1 1 1 0 (some 1) [some 0, none] [none, none] [some 1, none] [none, none],
       .block true ⟨none, none⟩ 1 0 1 0 (some 0) [none, none] [none, none] [none, none] [none, none],
       .inherit ⟨some (lit "u:w"), some (lit "u:w")⟩ [⟨⟨none, some (lit "u:v")⟩, ⟨none, some (lit "t:r")⟩⟩],
       .keywords true [⟨lit "if", some 0, false, none⟩, ⟨lit "+", some 1, true, none⟩] 1 false]),
     (lit "u:v", [.regexp false 1 0 none [some 2, none] [none, none]]),
     (lit "u:w", [.inherit ⟨some (lit "u:v"), some (lit "u:v")⟩ []]),
     (lit "t:r", [.regexp false 1 0 (some 1) [some 1, none] [none, none]])] := by
  decide +kernel

/-- so C61 speaks of it -/
example := C61_loaded_schemes_are_fine (src := bodySrc) (fuel := 3) [lit "t", lit "u"] (by decide) (by decide) [.load (lit "t"), .getRegion (lit "u:C")]

/-- a library in which `u` is known and started, `t` is being read: the premises of C62 -/
def midLib : Lib := ⟨[lit "t", lit "u"], [lit "t", lit "u"], [], [], fun x => if x = lit "t" then [lit "u"] else [],
  [⟨lit "u:C", none⟩, ⟨lit "t:A", none⟩], [(lit "t:e", lit "x")], [⟨lit "u:v", lit "u", []⟩], some (lit "t"), [lit "u"], true, false⟩

theorem midLib_ready : Ready midLib (lit "t") := by
  refine ⟨⟨by decide, ?_, ?_, by decide⟩, rfl, by decide⟩
  · intro t h; cases h; decide
  · intro x t h
    simp only [midLib] at h ⊢
    split at h
    · rw [List.mem_singleton.1 h]; decide
    · cases h

example (loadF : Lib → Name → Option Lib) := C62_scheme_is_its_elements bodySrc loadF midLib (lit "t") midLib_ready
  (el "scheme" [("name", "s")] [el "regexp" [("match", "/%e;y/"), ("region", "A"), ("region1", "C")] [], el "inherit" [("scheme", "v")] []]) (lit "t:s")
  (.inl ⟨by decide, by decide⟩) (by decide)

example (loadF : Lib → Name → Option Lib) := C62_other_schemes_are_left_out bodySrc loadF midLib (lit "t")
  (el "scheme" [("name", "u:s")] [el "inherit" [("scheme", "v")] []]) (fun q h => by
    rcases h with ⟨h, _⟩ | ⟨_, h, _⟩
    · exact absurd h (by decide)
    · exact absurd h (by decide))

/-- the names in it stand for the imported region and scheme, too -/
example : ([el "regexp" [("match", "/%e;y/"), ("region", "A"), ("region1", "C")] [], el "inherit" [("scheme", "v")] []].filterMap
      (readNode bodySrc (midLib.look (lit "t")))).map SNode.shape =
    [.regexp false 1 0 (some 1) [some 1, some 0] [none, none], .inherit ⟨some (lit "u:v"), some (lit "u:v")⟩ []] := by
  decide +kernel

end Verif.Hrc
