import Verif.Model.Arguments
import Verif.Model.ArgumentsV3
import Verif.Model.AssignFunc
import Verif.Model.BuildErr
import Verif.Model.Bytes
import Verif.Model.BytesVal
import Verif.Model.CallClass
import Verif.Model.Cause
import Verif.Model.Collections
import Verif.Model.Combinators
import Verif.Model.Complex
import Verif.Model.ComputedCalls
import Verif.Model.Core
import Verif.Model.Dataclass
import Verif.Model.DateTime
import Verif.Model.Decimal
import Verif.Model.DefaultCopy
import Verif.Model.Definitions
import Verif.Model.DupKeys
import Verif.Model.Engine
import Verif.Model.ExclDefault
import Verif.Model.Fields
import Verif.Model.Filter
import Verif.Model.Floats
import Verif.Model.FromAttr
import Verif.Model.Generator
import Verif.Model.Infer
import Verif.Model.Info
import Verif.Model.Inputs
import Verif.Model.IntParse
import Verif.Model.JsonSchema
import Verif.Model.JsonText
import Verif.Model.Keys
import Verif.Model.LaxRetry
import Verif.Model.LaxThreads
import Verif.Model.LazyWarn
import Verif.Model.LitText
import Verif.Model.Literal
import Verif.Model.LookupKey
import Verif.Model.Messages
import Verif.Model.ModelClass
import Verif.Model.Naming
import Verif.Model.Numbers
import Verif.Model.ObType
import Verif.Model.Patterns
import Verif.Model.Prebuilt
import Verif.Model.PrebuiltSer
import Verif.Model.RecursionGuard
import Verif.Model.Report
import Verif.Model.SerBuild
import Verif.Model.SerConfig
import Verif.Model.SerErr
import Verif.Model.SerFields
import Verif.Model.SerFunction
import Verif.Model.SerSchema
import Verif.Model.SerSet
import Verif.Model.SerTuple
import Verif.Model.SerUnion
import Verif.Model.Settings
import Verif.Model.State
import Verif.Model.StringMode
import Verif.Model.Strings
import Verif.Model.TagLookup
import Verif.Model.TextUnion
import Verif.Model.Truncate
import Verif.Model.Union
import Verif.Model.Url
import Verif.Model.Uuid
import Verif.Model.WarnMode
import Verif.Spec.Arguments
import Verif.Spec.ArgumentsV3
import Verif.Spec.AssignFunc
import Verif.Spec.BuildErr
import Verif.Spec.CallClass
import Verif.Spec.Cause
import Verif.Spec.Collections
import Verif.Spec.Complex
import Verif.Spec.ComputedCalls
import Verif.Spec.Conforms
import Verif.Spec.Count
import Verif.Spec.Dataclass
import Verif.Spec.DateTime
import Verif.Spec.Decimal
import Verif.Spec.DefaultCopy
import Verif.Spec.DupKeys
import Verif.Spec.Engine
import Verif.Spec.ErrorNew
import Verif.Spec.ExclDefault
import Verif.Spec.Fields
import Verif.Spec.Filter
import Verif.Spec.Floats
import Verif.Spec.FromAttr
import Verif.Spec.Info
import Verif.Spec.IntParse
import Verif.Spec.JsonSchema
import Verif.Spec.JsonText
import Verif.Spec.Keys
import Verif.Spec.LaxRetry
import Verif.Spec.LaxTable
import Verif.Spec.LaxThreads
import Verif.Spec.LazyWarn
import Verif.Spec.LitText
import Verif.Spec.Literal
import Verif.Spec.Lookup
import Verif.Spec.Messages
import Verif.Spec.ModelClass
import Verif.Spec.Naming
import Verif.Spec.Numbers
import Verif.Spec.ObType
import Verif.Spec.Patterns
import Verif.Spec.Prebuilt
import Verif.Spec.PrebuiltSer
import Verif.Spec.Report
import Verif.Spec.Revalidate
import Verif.Spec.RoundTrip
import Verif.Spec.Sample
import Verif.Spec.SerConfig
import Verif.Spec.SerEngine
import Verif.Spec.SerErr
import Verif.Spec.SerExact
import Verif.Spec.SerFields
import Verif.Spec.SerFunction
import Verif.Spec.SerSet
import Verif.Spec.SerTyped
import Verif.Spec.Settings
import Verif.Spec.StrictLax
import Verif.Spec.StringMode
import Verif.Spec.TagLookup
import Verif.Spec.TemporalTable
import Verif.Spec.TextUnion
import Verif.Spec.TripSample
import Verif.Spec.Tuples
import Verif.Spec.Url
import Verif.Spec.Uuid
import Verif.Spec.WarnMode
import Verif.Lemmas.Arguments
import Verif.Lemmas.ArgumentsV3
import Verif.Lemmas.ArgumentsV3Errors
import Verif.Lemmas.Bytes
import Verif.Lemmas.Cause
import Verif.Lemmas.Collections
import Verif.Lemmas.Complex
import Verif.Lemmas.Count
import Verif.Lemmas.Dataclass
import Verif.Lemmas.Decimal
import Verif.Lemmas.DefaultCopy
import Verif.Lemmas.Definitions
import Verif.Lemmas.EngineAt
import Verif.Lemmas.EngineAtModel
import Verif.Lemmas.EngineBuild
import Verif.Lemmas.EngineFix
import Verif.Lemmas.EngineLax
import Verif.Lemmas.EngineLaxFields
import Verif.Lemmas.EngineLaxSchema
import Verif.Lemmas.EnginePost
import Verif.Lemmas.EnginePostModel
import Verif.Lemmas.EnginePostTuple
import Verif.Lemmas.EnginePostTyped
import Verif.Lemmas.EnginePostUnion
import Verif.Lemmas.EngineSound
import Verif.Lemmas.ErrorNew
import Verif.Lemmas.Fields
import Verif.Lemmas.Filter
import Verif.Lemmas.Floats
import Verif.Lemmas.Info
import Verif.Lemmas.IntParse
import Verif.Lemmas.JsonParse
import Verif.Lemmas.JsonText
import Verif.Lemmas.Keys
import Verif.Lemmas.LaxRetry
import Verif.Lemmas.LaxTable
import Verif.Lemmas.LaxThreads
import Verif.Lemmas.Literal
import Verif.Lemmas.Lookup
import Verif.Lemmas.Messages
import Verif.Lemmas.Naming
import Verif.Lemmas.Numbers
import Verif.Lemmas.ObType
import Verif.Lemmas.Prebuilt
import Verif.Lemmas.PrebuiltSer
import Verif.Lemmas.RecursionGuard
import Verif.Lemmas.Report
import Verif.Lemmas.RoundTrip
import Verif.Lemmas.SerAgree
import Verif.Lemmas.SerCyclic
import Verif.Lemmas.SerEnds
import Verif.Lemmas.SerExact
import Verif.Lemmas.SerFields
import Verif.Lemmas.SerFields2
import Verif.Lemmas.SerFunction
import Verif.Lemmas.SerPlain
import Verif.Lemmas.SerTupleItems
import Verif.Lemmas.SerTyped
import Verif.Lemmas.SetsDicts
import Verif.Lemmas.Settings
import Verif.Lemmas.StringMode
import Verif.Lemmas.TagLookup
import Verif.Lemmas.TemporalTable
import Verif.Lemmas.TripBack
import Verif.Lemmas.TripEqual
import Verif.Lemmas.TripTakes
import Verif.Lemmas.TripTuple
import Verif.Lemmas.Truncate
import Verif.Lemmas.Tuples
import Verif.Lemmas.Url
import Verif.Lemmas.Uuid
import Verif.Props.Arguments
import Verif.Props.ArgumentsV3
import Verif.Props.AssignFunc
import Verif.Props.Assignment
import Verif.Props.BuildErr
import Verif.Props.Bytes
import Verif.Props.BytesVal
import Verif.Props.CallClass
import Verif.Props.Cause
import Verif.Props.Combinators
import Verif.Props.Complex
import Verif.Props.ComputedCalls
import Verif.Props.Count
import Verif.Props.Dataclass
import Verif.Props.DataclassInstance
import Verif.Props.DateTime
import Verif.Props.Decimal
import Verif.Props.DefaultCopy
import Verif.Props.Definitions
import Verif.Props.DupKeys
import Verif.Props.ErrorNew
import Verif.Props.ExclDefault
import Verif.Props.Filter
import Verif.Props.FilterContainers
import Verif.Props.Floats
import Verif.Props.FromAttr
import Verif.Props.Generator
import Verif.Props.Info
import Verif.Props.Inputs
import Verif.Props.IntParse
import Verif.Props.JsonSchema
import Verif.Props.JsonText
import Verif.Props.Keys
import Verif.Props.LaxRetry
import Verif.Props.LaxTable
import Verif.Props.LaxThreads
import Verif.Props.LazyWarn
import Verif.Props.Lists
import Verif.Props.LitText
import Verif.Props.Literal
import Verif.Props.Lookup
import Verif.Props.Messages
import Verif.Props.ModelInstance
import Verif.Props.Models
import Verif.Props.Naming
import Verif.Props.Numbers
import Verif.Props.ObType
import Verif.Props.Patterns
import Verif.Props.Prebuilt
import Verif.Props.PrebuiltSer
import Verif.Props.RecursionGuard
import Verif.Props.Report
import Verif.Props.Revalidation
import Verif.Props.RoundTrip
import Verif.Props.SerCall
import Verif.Props.SerConfig
import Verif.Props.SerEngine
import Verif.Props.SerErr
import Verif.Props.SerExact
import Verif.Props.SerFields
import Verif.Props.SerFunction
import Verif.Props.SerSet
import Verif.Props.SerTuple
import Verif.Props.SerTyped
import Verif.Props.SerUnion
import Verif.Props.SetsDicts
import Verif.Props.Settings
import Verif.Props.Soundness
import Verif.Props.StrictLax
import Verif.Props.StringMode
import Verif.Props.Strings
import Verif.Props.TagLookup
import Verif.Props.Temporal
import Verif.Props.TemporalTable
import Verif.Props.Termination
import Verif.Props.TextUnion
import Verif.Props.Truncate
import Verif.Props.Tuples
import Verif.Props.TypedDicts
import Verif.Props.Union
import Verif.Props.Unknown
import Verif.Props.UrlBuild
import Verif.Props.UrlSplit
import Verif.Props.UrlText
import Verif.Props.UrlValidator
import Verif.Props.Uuid
import Verif.Props.WarnMode
