import Verif.Model.App
import Verif.Model.Attr
import Verif.Model.Basic
import Verif.Model.Bitmap
import Verif.Model.Builtin
import Verif.Model.ClockText
import Verif.Model.CmdRun
import Verif.Model.Colors
import Verif.Model.Config
import Verif.Model.Context
import Verif.Model.Decode
import Verif.Model.DecodeCmd
import Verif.Model.Demo
import Verif.Model.Differ
import Verif.Model.Draw
import Verif.Model.EditLine
import Verif.Model.EscName
import Verif.Model.Escape
import Verif.Model.Events
import Verif.Model.Flags
import Verif.Model.Frame
import Verif.Model.FramePlay
import Verif.Model.Geom
import Verif.Model.GeomText
import Verif.Model.Grid
import Verif.Model.GridLines
import Verif.Model.Group
import Verif.Model.Hud
import Verif.Model.HudEdit
import Verif.Model.HudPanels
import Verif.Model.HudPick
import Verif.Model.HudStats
import Verif.Model.HudTiming
import Verif.Model.HudUpdate
import Verif.Model.Input
import Verif.Model.Interact
import Verif.Model.InteractDraw
import Verif.Model.Line
import Verif.Model.Log
import Verif.Model.LogDraw
import Verif.Model.LogSet
import Verif.Model.LogView
import Verif.Model.Lolwut
import Verif.Model.Mode
import Verif.Model.Mouse
import Verif.Model.MouseName
import Verif.Model.Num
import Verif.Model.OpenTerm
import Verif.Model.Output
import Verif.Model.Palette
import Verif.Model.PlatNew
import Verif.Model.Play
import Verif.Model.PlayMouse
import Verif.Model.Process
import Verif.Model.Profile
import Verif.Model.Recording
import Verif.Model.Render
import Verif.Model.Replay
import Verif.Model.ReplayText
import Verif.Model.Restore
import Verif.Model.Seq
import Verif.Model.SeqName
import Verif.Model.Session
import Verif.Model.Sgr
import Verif.Model.SgrName
import Verif.Model.Signal
import Verif.Model.Sized
import Verif.Model.Slice
import Verif.Model.Sprite
import Verif.Model.Stall
import Verif.Model.State
import Verif.Model.StateText
import Verif.Model.Suspend
import Verif.Model.TeleFile
import Verif.Model.TeleLog
import Verif.Model.Telemetry
import Verif.Model.Terminfo
import Verif.Model.Through
import Verif.Model.Ticker
import Verif.Model.To24
import Verif.Model.Utf8
import Verif.Model.VCursor
import Verif.Model.VScreen
import Verif.Model.Worker
import Verif.Model.WriteBitmap
import Verif.Spec.Attr
import Verif.Spec.Bitmap
import Verif.Spec.Context
import Verif.Spec.Display
import Verif.Spec.EditLine
import Verif.Spec.Geom
import Verif.Spec.Grid
import Verif.Spec.Input
import Verif.Spec.Mouse
import Verif.Spec.Num
import Verif.Spec.Render
import Verif.Spec.Screen
import Verif.Spec.Seq
import Verif.Spec.Session
import Verif.Spec.Sgr
import Verif.Spec.Stream
import Verif.Spec.Terminal
import Verif.Spec.VCursor
import Verif.Lemmas.CursorSeq
import Verif.Lemmas.Decode
import Verif.Lemmas.DecodeBounds
import Verif.Lemmas.DecodeEsc
import Verif.Lemmas.Draw
import Verif.Lemmas.Grid
import Verif.Lemmas.GridClear
import Verif.Lemmas.Num
import Verif.Lemmas.Process
import Verif.Lemmas.Render
import Verif.Lemmas.RenderGrid
import Verif.Lemmas.Repr
import Verif.Lemmas.Runes
import Verif.Lemmas.Screen
import Verif.Lemmas.Seq
import Verif.Lemmas.SgrBits
import Verif.Lemmas.SgrCodec
import Verif.Lemmas.SgrMerge
import Verif.Lemmas.SgrOver
import Verif.Lemmas.SgrTerm
import Verif.Lemmas.Utf8
import Verif.Props.App
import Verif.Props.Attr
import Verif.Props.Bitmap
import Verif.Props.Builtin
import Verif.Props.BuiltinKeys
import Verif.Props.Clicked
import Verif.Props.ClockText
import Verif.Props.CmdRun
import Verif.Props.Colors
import Verif.Props.Config
import Verif.Props.Context
import Verif.Props.CursorTo
import Verif.Props.DecodeCmd
import Verif.Props.Decoding
import Verif.Props.Demo
import Verif.Props.DemoShown
import Verif.Props.Differ
import Verif.Props.DifferMore
import Verif.Props.Direct
import Verif.Props.Draw
import Verif.Props.DrawBitmap
import Verif.Props.EditLine
import Verif.Props.EditLineView
import Verif.Props.Emulate
import Verif.Props.Erase
import Verif.Props.EscName
import Verif.Props.Events
import Verif.Props.Flags
import Verif.Props.Frame
import Verif.Props.FrameKeys
import Verif.Props.FramePlay
import Verif.Props.Geom
import Verif.Props.GeomText
import Verif.Props.Grid
import Verif.Props.GridLines
import Verif.Props.Group
import Verif.Props.Hud
import Verif.Props.HudAdds
import Verif.Props.HudEdit
import Verif.Props.HudPanels
import Verif.Props.HudPick
import Verif.Props.HudPicked
import Verif.Props.HudRows
import Verif.Props.HudStats
import Verif.Props.HudTakes
import Verif.Props.HudTiming
import Verif.Props.HudUpdate
import Verif.Props.InputDecode
import Verif.Props.InputFlags
import Verif.Props.InputRead
import Verif.Props.Interact
import Verif.Props.InteractAside
import Verif.Props.InteractAsideEnd
import Verif.Props.InteractDraw
import Verif.Props.InteractEdit
import Verif.Props.InteractOver
import Verif.Props.InteractOverEdit
import Verif.Props.InteractSafe
import Verif.Props.InteractShown
import Verif.Props.InteractUses
import Verif.Props.Line
import Verif.Props.Log
import Verif.Props.LogDraw
import Verif.Props.LogFile
import Verif.Props.LogSet
import Verif.Props.LogView
import Verif.Props.LolShown
import Verif.Props.Lolwut
import Verif.Props.Mode
import Verif.Props.Modes
import Verif.Props.Mouse
import Verif.Props.MouseName
import Verif.Props.Numbers
import Verif.Props.OpenTerm
import Verif.Props.Output
import Verif.Props.OverlayShown
import Verif.Props.Palette
import Verif.Props.Pictures
import Verif.Props.PlatNew
import Verif.Props.PlatShown
import Verif.Props.Play
import Verif.Props.PlayMouse
import Verif.Props.Profile
import Verif.Props.RecRep
import Verif.Props.Record
import Verif.Props.Recording
import Verif.Props.Render
import Verif.Props.RenderMore
import Verif.Props.Replay
import Verif.Props.ReplayText
import Verif.Props.Restore
import Verif.Props.Resumed
import Verif.Props.Screen
import Verif.Props.SeqName
import Verif.Props.Sequences
import Verif.Props.Session
import Verif.Props.Sgr
import Verif.Props.SgrDecode
import Verif.Props.SgrMeaning
import Verif.Props.SgrName
import Verif.Props.Signal
import Verif.Props.Sized
import Verif.Props.Sprite
import Verif.Props.Stall
import Verif.Props.StateText
import Verif.Props.Stream
import Verif.Props.Style
import Verif.Props.Styled
import Verif.Props.Suspend
import Verif.Props.TeleFile
import Verif.Props.TeleLog
import Verif.Props.Telemetry
import Verif.Props.TermRun
import Verif.Props.Terminfo
import Verif.Props.Through
import Verif.Props.Ticker
import Verif.Props.To24
import Verif.Props.TypedShown
import Verif.Props.Typing
import Verif.Props.Usage
import Verif.Props.VCursor
import Verif.Props.VCursorFlush
import Verif.Props.Worker
import Verif.Props.WriteBitmap
