import Verif.LineRegions.Model
import Verif.LineRegions.Spec
import Verif.LineRegions.Lemmas
import Verif.LineRegions.Refine
import Verif.LineRegions.Props
import Verif.Keywords.Model
import Verif.Keywords.Spec
import Verif.Keywords.Lemmas
import Verif.Keywords.Props
import Verif.CharClass.Model
import Verif.CharClass.Spec
import Verif.CharClass.Lemmas
import Verif.CharClass.Props
import Verif.CharClass.LegacyProps
import Verif.Encodings.Model
import Verif.Encodings.Spec
import Verif.Encodings.Props
import Verif.VTList.Model
import Verif.VTList.Spec
import Verif.VTList.Props
import Verif.ParseCache.Model
import Verif.ParseCache.Spec
import Verif.ParseCache.Props
import Verif.Outliner.Model
import Verif.Outliner.Spec
import Verif.Outliner.Props
import Verif.Styles.Model
import Verif.Styles.Spec
import Verif.Styles.Props
import Verif.Hrc.Model
import Verif.Hrc.Spec
import Verif.Hrc.Lemmas
import Verif.Hrc.Props
import Verif.FileTypes.Model
import Verif.FileTypes.Spec
import Verif.FileTypes.Props
import Verif.Strings.Model
import Verif.Strings.Spec
import Verif.Strings.Props
import Verif.Viewer.Model
import Verif.Viewer.Spec
import Verif.Viewer.Props
import Verif.Viewer.Compose
import Verif.Editor.Model
import Verif.Editor.Props
import Verif.Editor.Pairs
import Verif.TextParser.Model
import Verif.TextParser.Rules
import Verif.TextParser.Lines
import Verif.TextParser.Nesting
import Verif.TextParser.Demo
import Verif.TextParser.Facts
import Verif.TextParser.Sim
import Verif.TextParser.Cut
import Verif.TextParser.Resume
import Verif.TextParser.History
import Verif.TextParser.Open
import Verif.TextParser.Replay
import Verif.TextParser.Demo2
import Verif.TextParser.Proper
import Verif.TextParser.Ends
import Verif.TextParser.EndsDemo
import Verif.RegExp.Model
import Verif.RegExp.Bounds
import Verif.RegExp.Demo
import Verif.RegExp.History
import Verif.RegExp.Quick
import Verif.RegExp.Spec
import Verif.RegExp.Lands
import Verif.RegExp.Det
import Verif.RegExp.Nodes
import Verif.RegExp.Loops
import Verif.RegExp.Counted
import Verif.RegExp.Exact
import Verif.RegExp.Lang
import Verif.RegExp.Match
import Verif.RegExp.Ends
import Verif.RegExp.Wrong
import Verif.RegExp.Compile
import Verif.RegExp.Total
import Verif.RegExp.Syntax
import Verif.RegExp.Plain
import Verif.RegExp.PlainMatch
import Verif.RegExp.Gen
import Verif.RegExp.ReadClass
import Verif.RegExp.Read
import Verif.RegExp.Written
import Verif.RegExp.Prefer
import Verif.RegExp.Compiled
import Verif.RegExp.Forward
import Verif.RegExp.Marks
import Verif.RegExp.Sure
import Verif.RegExp.Shared
import Verif.RegExp.Outside
import Verif.RegExp.GroupsWritten
import Verif.RegExp.GroupsDemo
import Verif.RegExp.Unclosed
import Verif.RegExp.Marked
import Verif.RegExp.MarkedDemo
import Verif.Io.Model
import Verif.Io.Paths
import Verif.Io.Archive
import Verif.Io.MemFile
import Verif.Io.Shared
import Verif.Io.Log
import Verif.Whole.Split
import Verif.Whole.Draw
import Verif.Whole.Redraw
import Verif.Whole.Paint
import Verif.Whole.Model
import Verif.Whole.Sim
import Verif.Whole.Props
import Verif.Whole.Demo
import Verif.RegExp.Near
import Verif.TextParser.Agree
import Verif.Engine.Same
import Verif.Engine.Demo
import Verif.Engine.Hang
import Verif.Engine.EditorDemo
import Verif.Hrc.Grammar
import Verif.Hrc.Load
import Verif.Hrc.Schemes
import Verif.Hrc.BodySpec
import Verif.Hrc.Bodies
import Verif.Hrc.BodyDemo
import Verif.Hrc.Life
import Verif.Engine.Loaded
import Verif.TextParser.Grow
import Verif.Engine.Later
import Verif.Engine.LoadedDemo
import Verif.Engine.Screen
import Verif.Engine.ScreenDemo
import Verif.Factory.Model
import Verif.Factory.Spec
import Verif.Factory.Props
import Verif.Factory.Start
import Verif.Factory.Hrd
import Verif.Factory.Save
import Verif.Factory.Xml
import Verif.Factory.Demo
import Verif.Editor.Down
import Verif.Whole.Down
import Verif.TextParser.Inside
import Verif.TextParser.Fault
import Verif.Engine.Down
import Verif.Tool.Model
import Verif.Tool.Spec
import Verif.Tool.Lines
import Verif.Tool.Props
import Verif.Tool.Html
import Verif.Tool.Bytes
import Verif.Tool.Select
import Verif.Tool.Links
import Verif.Tool.Demo
import Verif.LineRegions.Clean
import Verif.Whole.Clean
import Verif.Editor.Lazy
import Verif.Editor.LazyDemo
import Verif.Whole.Pairs
import Verif.Whole.PairsDemo
import Verif.Tool.Args
import Verif.Tool.Tester
import Verif.Tool.Forward
import Verif.Chars.CaseProps
import Verif.Io.Entities
import Verif.Logging.Props
import Verif.Encodings.Detect
import Verif.Factory.Says
import Verif.Hrc.Default
