import Verif.Word
import Verif.Names
import Verif.LinkedList
import Verif.PubSub
import Verif.Prog
import Verif.Tables
import Verif.Components
import Verif.Host
import Verif.Lifecycle
import Verif.TopicMachine
import Verif.Typed
import Verif.TypedSim
import Verif.TypedRules
import Verif.Rtl
import Verif.Micro
import Verif.Seq
import Verif.Machine
import Verif.Isa
import Verif.Observe
import Verif.Trace
import Verif.IsaSim
import Verif.RunSim
import Verif.Loader
import Verif.History
import Verif.Undefined
import Verif.Data
import Verif.Pair
import Verif.Messages
import Verif.Props.Basics
import Verif.Props.Instructions
import Verif.Props.Cpu
import Verif.Props.Cycle
import Verif.Props.Machine
import Verif.Contain
import Verif.BadFetch
import Verif.Props.Contain
import Verif.Front.Ops
import Verif.Front.Assembler
import Verif.Front.AsmSpec
import Verif.Front.Lex
import Verif.Front.Table
import Verif.Front.Hexa
import Verif.Front.Line
import Verif.Front.Text
import Verif.Front.Post
import Verif.Front.Program
import Verif.Front.Layout
import Verif.Front.Render
import Verif.Front.Debugger
import Verif.Front.Shown
import Verif.Front.Coder
import Verif.Front.Saved
import Verif.Props.Assembler
import Verif.Props.Drawer
import Verif.Front.Runs
import Verif.Front.Samples
import Verif.Front.Samples2
import Verif.Props.Examples
import Verif.Buttons
import Verif.Props.Buttons
import Verif.Bus
import Verif.Diagram
import Verif.Props.Diagram
import Verif.Panel
import Verif.Told
import Verif.Props.Panel
import Verif.Front.NumberBox
import Verif.Front.MemPanel
import Verif.Props.Boxes
import Verif.Props.MemoryBox
import Verif.Front.Marks
import Verif.Front.Stored
import Verif.Props.Marks
import Verif.Props.Stored
import Verif.Front.Session
import Verif.Props.Session
import Verif.Front.Texts
import Verif.Front.I18n
import Verif.Props.I18n
import Verif.Picture
import Verif.Props.Picture
import Verif.Front.Backend
import Verif.Props.Backend
import Verif.Front.Docs
import Verif.Front.Factorial
import Verif.Front.Malicious
import Verif.Front.Product0
import Verif.Front.Exercises
import Verif.Props.Docs
import Verif.Front.DebugPanel
import Verif.Props.DebugBox
import Verif.Front.Link
import Verif.Props.Link
import Verif.Logger
import Verif.Utils
import Verif.Props.Logger
import Verif.Props.Utils
import Verif.Handles
import Verif.Front.Changelog
import Verif.Props.Handles
import Verif.Props.Changelog
import Verif.Front.SourceRun
import Verif.Front.SourceSim
import Verif.Props.Source
import Verif.Front.Listing
import Verif.Props.Listing
import Verif.Props.Play
import Verif.Props.Blocks
import Verif.Props.Played
import Verif.Front.Editing
import Verif.Front.Site
import Verif.Props.Editing
import Verif.Props.Site
import Verif.Front.Labels
import Verif.Props.Labels
import Verif.Front.Snippets
import Verif.Props.Snippets
import Verif.Front.MicroText
import Verif.Props.MicroText
import Verif.Props.Recursion
import Verif.Props.Internal
import Verif.Props.Periodic
import Verif.Props.Unread
import Verif.Props.Elsewhere
import Verif.Props.Time
import Verif.Props.Every
import Verif.Props.Colours
import Verif.Props.Floating
import Verif.Props.Reenter
import Verif.Props.OutOfMemory
import Verif.Props.Drivers
import Verif.Props.UnitTests
import Verif.Props.Schedule
import Verif.Props.Malloc
import Verif.Props.Timing
import Verif.Props.Names
import Verif.Props.Transpiler
import Verif.Props.Plain
import Verif.Props.Depth
import Verif.Props.Calls
import Verif.Props.Costs
import Verif.Props.Alike
