/-!
# Model of the parse cache lookup

Models `ParseCache` (parsers/TextParserHelpers.h:47-100 of /repo/src/colorer) and `ParseCache::searchLine`
(parsers/TextParserHelpers.cpp:30-53). The tree is kept as in the code: each entry points to its first child and to its next
sibling. `parent`/`prev` (back links), the scheme, the virtual tables, the start match and the back line are the payload `id`.
-/
namespace Verif.ParseCache

/-- `ParseCache*`: null or an entry with `sline`, `eline`, `children`, `next` (TextParserHelpers.h:51-86). -/
inductive PC where
  | null
  | node (id : Nat) (sline eline : Int) (children next : PC)
deriving DecidableEq, Repr

/-- The loop of `searchLine` (TextParserHelpers.cpp:32-52): `tmp` and the current value of `*cache`; the result is the
returned pointer and the final `*cache`. The recursive call on the children starts with `*cache = nullptr` (33). -/
def search (ln : Int) : PC → PC → PC × PC
  | .null, cache => (.null, cache)
  | .node id s e children next, cache =>
    if s ≤ ln ∧ ln ≤ e then                                    -- 36
      let (r1, r2) := search ln children .null                   -- 37-39
      if r1 ≠ .null then (r1, r2)                                -- 40-43
      else (.node id s e children next, r2)                      -- 44-45
    else search ln next (if s ≤ ln then .node id s e children next else cache)   -- 47-50

/-- `ParseCache::searchLine(ln, &cache)` called on the entry `t`. -/
def searchLine (t : PC) (ln : Int) : PC × PC := search ln t .null

end Verif.ParseCache
