import Verif.Proofs.Filler
import Verif.Proofs.Bind
import Verif.Proofs.Hollow
import Verif.Props.Leaf
import Verif.Props.Hints
import Verif.Spec.Union
import Verif.Proofs.Union
import Verif.Props.Union
import Verif.Proofs.Container
import Verif.Props.Container
import Verif.Spec.Deep
import Verif.Proofs.Deep
import Verif.Props.Deep
import Verif.Spec.Filler
import Verif.Spec.Hints
import Verif.Spec.ToyTok
import Verif.Proofs.Monad
import Verif.Model.Filler
import Verif.Props.Coercers
import Verif.Model.Coercers
import Verif.Spec.Toy
import Verif.Props.Validators
import Verif.Proofs.Select
import Verif.Proofs.SelectMore
import Verif.Props.Select
import Verif.Proofs.Dict
import Verif.Spec.Select
import Verif.Model.Select
import Verif.Model.Field
import Verif.Model.Export
import Verif.Model.New
import Verif.Spec.Class
import Verif.Spec.ToyRec
import Verif.Proofs.Class
import Verif.Proofs.ClassMore
import Verif.Props.Class
import Verif.Spec.New
import Verif.Spec.ToyEnv
import Verif.Proofs.New
import Verif.Props.New
import Verif.Spec.Export
import Verif.Proofs.Export
import Verif.Props.Export
import Verif.Spec.Factory
import Verif.Proofs.Factory
import Verif.Props.Factory
import Verif.Spec.Parse
import Verif.Props.Parse
import Verif.Props.Equality
import Verif.Props.Order
import Verif.Model.Instance
import Verif.Spec.Instance
import Verif.Spec.ToyHash
import Verif.Proofs.Instance
import Verif.Proofs.Order
import Verif.Spec.Roundtrip
import Verif.Proofs.Roundtrip
import Verif.Props.Roundtrip
import Verif.Props.Pickle
import Verif.Model.Exporter
import Verif.Spec.Exporter
import Verif.Proofs.Exporter
import Verif.Props.Exporter
import Verif.Spec.Honest
import Verif.Proofs.Honest
import Verif.Props.Honest
import Verif.Spec.Stable
import Verif.Proofs.Stable
import Verif.Props.Stable
import Verif.Spec.Invariant
import Verif.Proofs.Invariant
import Verif.Props.RecordTypes
import Verif.Model.Tokens
import Verif.Spec.Tokens
import Verif.Props.Tokens
import Verif.Model.Program
import Verif.Spec.Program
import Verif.Proofs.Program
import Verif.Props.Program
import Verif.Props.Vocabulary
import Verif.Spec.SubKey
import Verif.Proofs.SubKey
import Verif.Props.SubKey
import Verif.Props.Legal
import Verif.Props.Literal
import Verif.Spec.Depth
import Verif.Props.Depth
import Verif.Model.Tags
import Verif.Model.Files
import Verif.Spec.Tags
import Verif.Spec.Files
import Verif.Props.Tags
import Verif.Props.Files
import Verif.Props.Floats
import Verif.Spec.Raises
import Verif.Proofs.Raises
import Verif.Props.Raises
import Verif.Spec.Convert
import Verif.Props.Convert
import Verif.Props.Incomparable
import Verif.Model.Foreign
import Verif.Props.Foreign
import Verif.Spec.Declares
import Verif.Proofs.Declares
import Verif.Props.Declares
import Verif.Model.Effects
import Verif.Spec.Effects
import Verif.Proofs.Effects
import Verif.Props.Effects
import Verif.Model.Extras
import Verif.Spec.Extras
import Verif.Props.Extras
import Verif.Spec.Safety
import Verif.Props.Safety
import Verif.Model.OneShot
import Verif.Spec.OneShot
import Verif.Proofs.OneShot
import Verif.Props.OneShot
import Verif.Model.Special
import Verif.Spec.Special
import Verif.Proofs.Special
import Verif.Props.Special
import Verif.Model.Keys
import Verif.Spec.Keys
import Verif.Proofs.Keys
import Verif.Props.Keys
import Verif.Model.Sort
import Verif.Spec.Sort
import Verif.Props.Sort
import Verif.Spec.Repr
import Verif.Proofs.Repr
import Verif.Props.Repr
import Verif.Spec.Kin
import Verif.Proofs.Kin
import Verif.Props.Kin
import Verif.Model.Lazy
import Verif.Spec.Lazy
import Verif.Proofs.Lazy
import Verif.Props.Lazy
import Verif.Model.Threads
import Verif.Spec.Threads
import Verif.Proofs.Threads
import Verif.Props.Threads
import Verif.Model.Override
import Verif.Spec.Override
import Verif.Props.Override
import Verif.Model.Copying
import Verif.Spec.Copying
import Verif.Proofs.Copying
import Verif.Props.Copying
import Verif.Model.Nested
import Verif.Spec.Nested
import Verif.Props.Nested
import Verif.Spec.Documents
import Verif.Props.Documents
import Verif.Spec.Archive
import Verif.Props.Archive
import Verif.Model.Pickling
import Verif.Spec.Pickling
import Verif.Proofs.Pickling
import Verif.Props.Pickling
import Verif.Spec.Copies
import Verif.Props.Copies
import Verif.Model.Lifetime
import Verif.Spec.Lifetime
import Verif.Props.Lifetime
import Verif.Spec.Legal
import Verif.Props.Accepts
import Verif.Model.Dispatch
import Verif.Spec.Dispatch
import Verif.Props.Dispatch
import Verif.Model.Printing
import Verif.Spec.Printing
import Verif.Props.Printing
import Verif.Model.Comparing
import Verif.Spec.Comparing
import Verif.Props.Comparing
import Verif.Conformance.World
import Verif.Conformance.Checking
import Verif.Conformance.Coercers
import Verif.Conformance.Validation
import Verif.Conformance.Records
import Verif.Conformance.Readme
import Verif.Audit
