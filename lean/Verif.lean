import Verif.Cases.Answers
import Verif.Cases.Atomic
import Verif.Cases.Basic
import Verif.Cases.Build
import Verif.Cases.CutOrder
import Verif.Cases.Describe
import Verif.Cases.Dress
import Verif.Cases.Evolve
import Verif.Cases.Faithful
import Verif.Cases.Frames
import Verif.Cases.Graph
import Verif.Cases.Independent
import Verif.Cases.Ledger
import Verif.Cases.Listed
import Verif.Cases.Monotone
import Verif.Cases.MonotoneCalls
import Verif.Cases.Painter
import Verif.Cases.Pictures
import Verif.Cases.Sessions
import Verif.Cases.Shape
import Verif.Cases.StyleMaps
import Verif.Cases.StyleShown
import Verif.Cases.Styles
import Verif.Lemmas.Again
import Verif.Lemmas.Alone
import Verif.Lemmas.AncestorsPure
import Verif.Lemmas.Blocks
import Verif.Lemmas.Booked
import Verif.Lemmas.BookedRun
import Verif.Lemmas.Brush
import Verif.Lemmas.BrushPass
import Verif.Lemmas.CanStyle
import Verif.Lemmas.Chain
import Verif.Lemmas.Copy
import Verif.Lemmas.CopyFresh
import Verif.Lemmas.CopyRep
import Verif.Lemmas.CopyStyle
import Verif.Lemmas.DepthLimit
import Verif.Lemmas.Dfs
import Verif.Lemmas.Dict
import Verif.Lemmas.DictDraws
import Verif.Lemmas.DotLex
import Verif.Lemmas.DotParse
import Verif.Lemmas.DraftGraph
import Verif.Lemmas.Draw
import Verif.Lemmas.DrawHeader
import Verif.Lemmas.Drawn
import Verif.Lemmas.EdgeQuery
import Verif.Lemmas.Export
import Verif.Lemmas.Frame
import Verif.Lemmas.Frames
import Verif.Lemmas.HistRep
import Verif.Lemmas.InOrder
import Verif.Lemmas.Independent
import Verif.Lemmas.Inherit
import Verif.Lemmas.Lasting
import Verif.Lemmas.Later
import Verif.Lemmas.ListMore
import Verif.Lemmas.Local
import Verif.Lemmas.Made
import Verif.Lemmas.Meet
import Verif.Lemmas.Neighbours
import Verif.Lemmas.OneParent
import Verif.Lemmas.Over
import Verif.Lemmas.Owned
import Verif.Lemmas.Parse
import Verif.Lemmas.Passes
import Verif.Lemmas.Pose
import Verif.Lemmas.PosePaint
import Verif.Lemmas.Private
import Verif.Lemmas.Quiet
import Verif.Lemmas.Quote
import Verif.Lemmas.ReadOutline
import Verif.Lemmas.Refuse
import Verif.Lemmas.Rep
import Verif.Lemmas.RepNodes
import Verif.Lemmas.RepOps
import Verif.Lemmas.Repeat
import Verif.Lemmas.Replay
import Verif.Lemmas.Run
import Verif.Lemmas.RunEdge
import Verif.Lemmas.RunGraph
import Verif.Lemmas.Sessions
import Verif.Lemmas.Settle
import Verif.Lemmas.Similar
import Verif.Lemmas.SimilarStuck
import Verif.Lemmas.Sketch
import Verif.Lemmas.SketchRun
import Verif.Lemmas.StackDepth
import Verif.Lemmas.Strip
import Verif.Lemmas.Stylize
import Verif.Lemmas.Tame
import Verif.Lemmas.Touch
import Verif.Lemmas.Trace
import Verif.Lemmas.TraverseHeap
import Verif.Lemmas.TraversePure
import Verif.Lemmas.TraverseTop
import Verif.Lemmas.TreeStr
import Verif.Lemmas.Twin
import Verif.Model.Builders
import Verif.Model.Colour
import Verif.Model.Copy
import Verif.Model.CopyWorld
import Verif.Model.Dictionary
import Verif.Model.Filter
import Verif.Model.FromObject
import Verif.Model.GlobalStyle
import Verif.Model.Graphviz
import Verif.Model.Half
import Verif.Model.Heap
import Verif.Model.History
import Verif.Model.Mutate
import Verif.Model.ObjTraverse
import Verif.Model.Painter
import Verif.Model.Parse
import Verif.Model.Print
import Verif.Model.Query
import Verif.Model.Rename
import Verif.Model.Render
import Verif.Model.Session
import Verif.Model.Similar
import Verif.Model.Style
import Verif.Model.StyleMaps
import Verif.Model.StyleState
import Verif.Model.Stylize
import Verif.Model.Traverse
import Verif.Model.TreeOf
import Verif.Model.World
import Verif.Props.Add
import Verif.Props.AddNode
import Verif.Props.Answers
import Verif.Props.AnyOrder
import Verif.Props.Append
import Verif.Props.Atomic
import Verif.Props.Attributes
import Verif.Props.BuildOrder
import Verif.Props.Builders
import Verif.Props.CanStyle
import Verif.Props.ChildRank
import Verif.Props.Colours
import Verif.Props.Connect
import Verif.Props.Construct
import Verif.Props.Copy
import Verif.Props.CutOrder
import Verif.Props.Deleted
import Verif.Props.Demo
import Verif.Props.Describe
import Verif.Props.Dictionary
import Verif.Props.Distances
import Verif.Props.Draws
import Verif.Props.Dress
import Verif.Props.Edges
import Verif.Props.Elsewhere
import Verif.Props.Evolve
import Verif.Props.Faithful
import Verif.Props.Files
import Verif.Props.Filter
import Verif.Props.FilterAlgebra
import Verif.Props.FilterReach
import Verif.Props.FirstStyle
import Verif.Props.Frames
import Verif.Props.FromObject
import Verif.Props.Frozen
import Verif.Props.GlobalStyle
import Verif.Props.Graphviz
import Verif.Props.Half
import Verif.Props.Identity
import Verif.Props.Independent
import Verif.Props.Invert
import Verif.Props.Isolation
import Verif.Props.Ledger
import Verif.Props.Leftover
import Verif.Props.Life
import Verif.Props.LifeSession
import Verif.Props.Listed
import Verif.Props.Meetings
import Verif.Props.Monotone
import Verif.Props.MonotoneCalls
import Verif.Props.Naming
import Verif.Props.NodeTree
import Verif.Props.Objects
import Verif.Props.Order
import Verif.Props.Owned
import Verif.Props.Painter
import Verif.Props.Parse
import Verif.Props.Print
import Verif.Props.Random
import Verif.Props.Readd
import Verif.Props.Reindent
import Verif.Props.Remove
import Verif.Props.Rename
import Verif.Props.Restyle
import Verif.Props.Roots
import Verif.Props.Session
import Verif.Props.Settings
import Verif.Props.Shape
import Verif.Props.Siblings
import Verif.Props.Similar
import Verif.Props.StackDepth
import Verif.Props.Structure
import Verif.Props.Style
import Verif.Props.StyleDict
import Verif.Props.StyleExact
import Verif.Props.StyleMaps
import Verif.Props.StyleShown
import Verif.Props.StyleState
import Verif.Props.Stylize
import Verif.Props.Sums
import Verif.Props.TextOrder
import Verif.Props.TextTree
import Verif.Props.Texts
import Verif.Props.Tidy
import Verif.Props.Traverse
import Verif.Props.Tree
import Verif.Props.TreeTells
import Verif.Props.Undo
import Verif.Py
import Verif.Spec.Adding
import Verif.Spec.Alike
import Verif.Spec.Answers
import Verif.Spec.Append
import Verif.Spec.Brush
import Verif.Spec.Cutting
import Verif.Spec.Describe
import Verif.Spec.Dictionary
import Verif.Spec.Dot
import Verif.Spec.Draft
import Verif.Spec.Drawing
import Verif.Spec.Dress
import Verif.Spec.Files
import Verif.Spec.Frames
import Verif.Spec.Indent
import Verif.Spec.Independent
import Verif.Spec.Kinds
import Verif.Spec.Ledger
import Verif.Spec.Meet
import Verif.Spec.MultiGraph
import Verif.Spec.Outline
import Verif.Spec.Paint
import Verif.Spec.Picture
import Verif.Spec.Question
import Verif.Spec.Reach
import Verif.Spec.Seen
import Verif.Spec.Sensible
import Verif.Spec.Settings
import Verif.Spec.Shape
import Verif.Spec.SpecHistory
import Verif.Spec.Stuck
import Verif.Spec.StyleDict
import Verif.Spec.StyleShown
import Verif.Spec.Trace
