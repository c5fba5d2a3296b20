import Verif.Value
import Verif.Code
import Verif.Source.Path
import Verif.Source.Parse
import Verif.Source.Native
import Verif.Source.Config
import Verif.Source.Ops
import Verif.Source.Simple
import Verif.Source.Union
import Verif.Source.Mount
import Verif.Source.Lawful
import Verif.Source.Again
import Verif.Core
import Verif.Field
import Verif.Eval
import Verif.Ext
import Verif.Keeps
import Verif.Api
import Verif.Demo
import Verif.ValEq
import Verif.Dots
import Verif.Source.Cache
import Verif.Source.Deep
import Verif.All
import Verif.Lex
import Verif.LexRef
import Verif.LexEval
import Verif.Plain
import Verif.View
import Verif.Props.Context
import Verif.Props.Parse
import Verif.Props.Resolve
import Verif.Props.Loops
import Verif.Leaf
import Verif.Props.Fields
import Verif.Props.Unparsable
import Verif.Props.Dates
import Verif.Props.Single
import Verif.Says
import Verif.Clean
import Verif.Once
import Verif.Run
import Verif.Props.Silent
import Verif.Props.Forms
import Verif.Props.FormsDemo
import Verif.Props.Frame
import Verif.Closed
import Verif.Props.Modes
import Verif.Props.ModesDemo
import Verif.Twin
import Verif.Lax
import Verif.Props.Anywhere
import Verif.Props.AnywhereDemo
import Verif.Sub
import Verif.Props.Compose
import Verif.Props.ComposeDemo
import Verif.Props.Nested
import Verif.Props.Stages
import Verif.Props.StagesExact
import Verif.Props.StagesRead
import Verif.FormOps
import Verif.Props.Munge
import Verif.Props.Unmapped
import Verif.Source.Whole
import Verif.Capture
import Verif.Props.Captured
import Verif.Props.Getattr
import Verif.Props.Flatten
import Verif.Props.Union
import Verif.Props.Mount
import Verif.Props.Config
import Verif.Meta
import Verif.Props.Meta
import Verif.Props.Types
import Verif.Props.Poly
import Verif.Hook
import Verif.Props.Hook
import Verif.Hush
import Verif.Locus
import Verif.Props.Locus
import Verif.Props.LocusDemo
import Verif.Positional
import Verif.Props.Positional
import Verif.Props.PositionalDemo
import Verif.Blind
import Verif.Props.Independent
import Verif.Props.Local
import Verif.Builders
import Verif.Props.Builders
import Verif.Props.Format
import Verif.Props.BuildersDemo
import Verif.Props.Options
import Verif.Props.Translate
import Verif.Clone
import Verif.Props.Clone
import Verif.Fits
import Verif.FitsEval
import Verif.Props.Valid
import Verif.Dump
import Verif.Land
import Verif.Props.RoundTrip
import Verif.Props.Setattr
import Verif.Construct
import Verif.Props.Construct
import Verif.Props.Arguments
import Verif.Props.ConstructDemo
import Verif.Props.Made
import Verif.Props.Container
import Verif.Props.MadeDemo
import Verif.Fuel
import Verif.Source.Tall
import Verif.Source.Rank
import Verif.Source.Room
import Verif.Source.RoomUnion
import Verif.Source.RoomPath
import Verif.Source.Height
import Verif.Props.Terminates
import Verif.Props.TerminatesDemo
import Verif.Lone
import Verif.Level
import Verif.Source.Pin
import Verif.Props.Read
import Verif.Props.ReadDemo
import Verif.Perch
import Verif.Sure
import Verif.Wired
import Verif.WiredMap
import Verif.Props.Computed
import Verif.Props.ComputedDemo
import Verif.Moments
import Verif.Props.Strftime
import Verif.Props.Violations
import Verif.Props.Report
import Verif.Props.Code
import Verif.Source.Edit
import Verif.Props.Edit
import Verif.Props.Decimals
import Verif.Move
import Verif.MoveEval
import Verif.MoveForm
import Verif.Props.Apart
import Verif.Props.Order
import Verif.Source.AtHand
import Verif.MoveItems
import Verif.Props.Items
import Verif.Props.Steps
import Verif.Props.DefaultHook
import Verif.Props.Raw
import Verif.Props.Equal
import Verif.Props.Lenient
import Verif.Loose
import Verif.Props.Loosen
import Verif.Source.Make
import Verif.Props.Make
import Verif.Props.Text
import Verif.Props.FromContext
import Verif.Source.Nest
import Verif.Source.NestLaws
import Verif.Props.Nest
import Verif.Props.NestUnion
import Verif.Props.NestSame
import Verif.Props.NestMount
import Verif.Follow
import Verif.FollowField
import Verif.Merged
import Verif.Props.Merged
import Verif.Props.Shape
import Verif.Props.Outside
import Verif.Props.HooksDemo
