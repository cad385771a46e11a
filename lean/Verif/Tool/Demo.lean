import Verif.Tool.Props
import Verif.Tool.Html
import Verif.Tool.Bytes
import Verif.Engine.ScreenDemo
/-! Concrete cases for C71, C73, C74. -/
namespace Verif.Tool.Demo
open Verif.Hrc (lit)
open Verif.RegExp.Demo (ascii str)
open Verif.Engine

attribute [local irreducible] ScreenDemo.lib

theorem env_nodes : ScreenDemo.env.nodes = gramOf ScreenDemo.lib := rfl
theorem env_rx : ScreenDemo.env.with ScreenDemo.rx = ScreenDemo.env := rfl
theorem env_text : ScreenDemo.env.text ScreenDemo.line = ScreenDemo.env := rfl
theorem env_brk (t : Nat) : ScreenDemo.env.brk t = false := rfl

attribute [local irreducible] ScreenDemo.env ScreenDemo.rx

def lines : List Strings.Str := [str "zqz", str "qz"]

theorem source : sourceOf lines = ScreenDemo.line := by
  funext i
  unfold sourceOf
  split
  · rename_i h
    unfold ScreenDemo.line
    split
    · omega
    · omega
    · rfl
  · rename_i h
    obtain ⟨k, rfl⟩ := Int.eq_ofNat_of_zero_le (Int.not_lt.1 h)
    match k with
    | 0 => rfl
    | 1 => rfl
    | k + 2 =>
      have e1 : lines[((k + 2 : Nat) : Int).toNat]? = none := by
        rw [Int.toNat_natCast]; exact List.getElem?_eq_none (by simp [lines])
      rw [e1]
      unfold ScreenDemo.line
      split
      · omega
      · omega
      · rfl

theorem grammar : LoadedGrammar ScreenDemo.src 2 [lit "d"] [.load (lit "d")] ScreenDemo.lib ascii ScreenDemo.env :=
  ⟨by decide, by decide, ScreenDemo.loaded, ScreenDemo.steady, ScreenDemo.still, ScreenDemo.works, env_brk⟩

theorem tame : Whole.Tame ScreenDemo.env 1 (sourceOf lines) lines.length := by
  rw [source]
  refine ⟨by omega, by show ((2 : Nat) : Int) ≤ 134217727; omega, ?_⟩
  rw [env_text]
  obtain ⟨r, e, h⟩ := ScreenDemo.done
  exact ⟨r, TextParser.parses_of_parse e, h.2⟩

/-- red for the string, blue for `z` -/
def look : Nat → Option Styles.Styled
  | 0 => some ⟨true, false, 0xff0000, 0, 0⟩
  | 1 => some ⟨true, false, 0x0000ff, 0, 0⟩
  | _ => none

def opts : Opts := ⟨.rgb, true, true, true, true, none⟩

/-- the premises of C71 are met: a grammar with a string over two lines, two lines of text -/
example : ∃ e rs, setUp ScreenDemo.env 1 (styledStyles look fun _ => false) lines = some e ∧ AnswersE (langOf ascii ScreenDemo.lib) ScreenDemo.env e (Whole.allLines 2) rs ∧
    ∃ page, genOutput opts (some (lit "d")) none lines (rs.map (·.map (regOf .styled (fun _ => ([], [])) (fun _ => [])))) = .ok page := by
  obtain ⟨e, h1, ⟨rs, h2⟩, h3⟩ := C71_coloured_file_partial grammar 1 look (fun _ => false) lines ScreenDemo.rx (by rw [env_rx]; exact ScreenDemo.engine)
    (by rw [env_rx]; exact tame) opts rfl rfl none (lit "d") (fun _ => ([], [])) (fun _ => [])
  rw [env_rx] at h1
  obtain ⟨_, _, _, _, _, _, _, _, _, h⟩ := h3 rs h2
  exact ⟨e, rs, h1, h2, _, h⟩

def opaqueB : TextParser.Node → Bool
  | .block b => b.region.isSome
  | _ => true

theorem opaq : TextParser.Opaque ScreenDemo.env := by
  intro s b h
  rw [env_nodes] at h
  have all : (List.range ScreenDemo.lib.schemes.length).all (fun s => (gramOf ScreenDemo.lib s).all opaqueB) = true := by decide +kernel
  by_cases hs : s < ScreenDemo.lib.schemes.length
  · exact List.all_eq_true.1 (List.all_eq_true.1 all s (List.mem_range.2 hs)) _ h
  · unfold gramOf at h
    rw [List.getElem?_eq_none (by omega)] at h
    cases h

/-- the premises of C71 for region names -/
example : ∃ e rs, setUp ScreenDemo.env 1 (noStyles fun _ => false) lines = some e ∧ AnswersE (langOf ascii ScreenDemo.lib) ScreenDemo.env e (Whole.allLines 2) rs ∧
    ∃ page, genOutput { opts with format := .tokens } (some (lit "d")) none lines (rs.map (·.map (regOf .styled (fun _ => (lit "d:A", [])) (fun _ => [])))) = .ok page := by
  obtain ⟨e, h1, ⟨rs, h2⟩, h3⟩ := C71_named_file_partial grammar opaq 1 (fun _ => false) lines ScreenDemo.rx (by rw [env_rx]; exact ScreenDemo.engine)
    (by rw [env_rx]; exact tame) { opts with format := .tokens } rfl (lit "d") (fun _ => (lit "d:A", [])) (fun _ => [])
  rw [env_rx] at h1
  obtain ⟨_, _, _, _, _, _, _, _, _, h⟩ := h3 rs h2
  exact ⟨e, rs, h1, h2, _, h⟩

/-- what the tool writes for a line with two regions -/
example : (genOutput opts (some (lit "d")) none [str "a<q"] [[⟨0, 1, false, none, (look 1).map .styled, none⟩, ⟨1, -1, false, none, (look 0).map .styled, none⟩]]).map (emitAll opts) =
    .ok (lit "Created with colorer library. Type 'd'\n\n0: <span style='color:#0000ff; '>a</span><span style='color:#ff0000; '>&lt;q</span>\n") := by decide +kernel

/-- and how that reads -/
example : readHtml .text (lit "0: <span style='color:#0000ff; '>a</span><span style='color:#ff0000; '>&lt;q</span>\n") = plainPage true 1 0 [str "a<q"] := by decide +kernel

end Verif.Tool.Demo
