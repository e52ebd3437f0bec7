import Verif.Model.Py
import Verif.Model.Edit
import Verif.Model.Label
import Verif.Model.Regex
import Verif.Model.Base
import Verif.Model.Trie
import Verif.Model.Hash
import Verif.Model.Ops
import Verif.Props.Edit
import Verif.Props.Spans
import Verif.Props.Align
import Verif.Props.Elementwise
import Verif.Props.Tokenwise
import Verif.Props.WordPiece
import Verif.Props.SosPad
import Verif.Props.Hash
import Verif.Props.Numbers
import Verif.Props.Text
import Verif.Props.Stopwords
import Verif.Props.Pattern
import Verif.Props.Trie
import Verif.Props.Tokenizers
import Verif.Props.WordZh
import Verif.Model.Elements
import Verif.Model.Ordinal
import Verif.Props.Data
import Verif.Props.Expand
import Verif.Props.Toolkits
import Verif.Props.Ordinal
import Verif.Model.Json
import Verif.Model.Operator
import Verif.Model.Pipe
import Verif.Lemmas.Json
import Verif.Props.Pipe
import Verif.Props.Serialize
import Verif.Model.Builtins
import Verif.Lemmas.Honest
import Verif.Spec.Builtins
import Verif.Props.Builtins
import Verif.Props.Stored
import Verif.Lemmas.Words
import Verif.Spec.Bert
import Verif.Props.Bert
import Verif.Spec.Readme
import Verif.Props.Readme
import Verif.Model.Summary
import Verif.Model.History
import Verif.Spec.Summary
import Verif.Props.Summary
import Verif.Spec.Seeds
import Verif.Lemmas.Seeds
import Verif.Props.Seeds
import Verif.Spec.Murmur
import Verif.Props.Murmur
import Verif.Spec.Survive
import Verif.Lemmas.Survive
import Verif.Props.Survive
import Verif.Spec.Construct
import Verif.Props.Construct
import Verif.Spec.Recover
import Verif.Props.Recover
import Verif.Spec.Interchange
import Verif.Props.Interchange
import Verif.Spec.Slice
import Verif.Props.Slice
import Verif.Spec.History
import Verif.Props.History
import Verif.Spec.JsonText
import Verif.Spec.Listed
import Verif.Lemmas.JsonText
import Verif.Props.JsonText
import Verif.Spec.Load
import Verif.Props.Load
import Verif.Spec.Parts
import Verif.Lemmas.Parts
import Verif.Lemmas.PartsList
import Verif.Props.Parts
import Verif.Props.PartsExact
import Verif.Spec.LoadLabels
import Verif.Props.LoadLabels
import Verif.Model.Objects
import Verif.Spec.Objects
import Verif.Lemmas.Objects
import Verif.Props.Objects
import Verif.Spec.Names
import Verif.Props.Names
import Verif.Model.Messages
import Verif.Spec.Messages
import Verif.Props.Messages
import Verif.Model.Args
import Verif.Props.Args
import Verif.Model.Extend
import Verif.Spec.Extend
import Verif.Lemmas.Extend
import Verif.Props.Extend
import Verif.Props.Arguments
import Verif.Model.Shared
import Verif.Spec.Shared
import Verif.Lemmas.Shared
import Verif.Props.Shared
import Verif.Props.SharedPipe
import Verif.Model.Handles
import Verif.Spec.Handles
import Verif.Props.Handles
import Verif.Model.Float
import Verif.Spec.Float
import Verif.Lemmas.Float
import Verif.Props.Float
import Verif.Props.ExtendArgs
import Verif.Spec.Order
import Verif.Lemmas.Order
import Verif.Props.Order
import Verif.Spec.Raise
import Verif.Lemmas.Raise
import Verif.Props.Raise
import Verif.Model.Machine
import Verif.Spec.Machine
import Verif.Lemmas.Machine
import Verif.Props.Machine
import Verif.Props.MachineLimits
import Verif.Props.MachineUse
import Verif.Spec.Equality
import Verif.Props.Equality
import Verif.Spec.Service
import Verif.Props.Service
import Verif.Model.Loaded
import Verif.Spec.Loaded
import Verif.Props.Loaded
import Verif.Spec.Unbound
import Verif.Props.Unbound
import Verif.Props.Indices
import Verif.Model.Warnings
import Verif.Spec.Warnings
import Verif.Props.Warnings
import Verif.Model.Annotated
import Verif.Spec.Annotated
import Verif.Props.Annotated
import Verif.Model.Signatures
import Verif.Spec.Signatures
import Verif.Props.Signatures
import Verif.Model.Reference
import Verif.Spec.Reference
import Verif.Lemmas.Reference
import Verif.Props.Reference
import Verif.Model.Double
import Verif.Spec.Double
import Verif.Lemmas.Double
import Verif.Props.Double
import Verif.Model.Noisy
import Verif.Spec.Noisy
import Verif.Props.Noisy
import Verif.Model.Reprs
import Verif.Spec.Reprs
import Verif.Props.Reprs
import Verif.Spec.OnePiece
import Verif.Props.OnePiece
import Verif.Spec.Regained
import Verif.Props.Regained
import Verif.Spec.Twice
import Verif.Props.Twice
import Verif.Spec.Rename
import Verif.Lemmas.Rename
import Verif.Props.Rename
import Verif.Spec.Variants
import Verif.Props.Variants
import Verif.Spec.OwnLabels
import Verif.Props.OwnLabels
import Verif.Spec.Frame
import Verif.Props.Frame
import Verif.Spec.FrameEnd
import Verif.Props.FrameEnd
import Verif.Props.FrameEmpty
import Verif.Props.FrameHash
import Verif.Spec.Ink
import Verif.Props.Ink
import Verif.Spec.Normal
import Verif.Props.Normal
import Verif.Spec.Framing
import Verif.Props.Framing
import Verif.Spec.Written
import Verif.Props.Written
import Verif.Spec.Disjoint
import Verif.Props.Disjoint
import Verif.Props.DisjointExact
import Verif.Spec.Confuse
import Verif.Props.Confuse
import Verif.Spec.Grow
import Verif.Props.Grow
import Verif.Props.Lengths
import Verif.Model.Registry
import Verif.Props.Registry
import Verif.Spec.Produce
import Verif.Props.Produce
import Verif.Spec.ReadBack
import Verif.Props.ReadBack
import Verif.Spec.Settle
import Verif.Props.Settle
import Verif.Props.SettleExact
import Verif.Props.SettleSubwords
import Verif.Props.SettleStop
import Verif.Props.SettleOrder
import Verif.Props.SettleOnly
import Verif.Props.SettleData
import Verif.Conform.Edit
import Verif.Conform.Elements
import Verif.Conform.Setup
import Verif.Conform.Ops
import Verif.Conform.Pipe
