import Verif.Model.Machine
import Verif.Props.Matching
import Verif.Lemmas.ApiStable
import Verif.Lemmas.Invariants
import Verif.Lemmas.Script
import Verif.Lemmas.Hook
import Verif.Lemmas.Hist
import Verif.Lemmas.Select
import Verif.Lemmas.Frame
import Verif.Lemmas.Serve
import Verif.Spec.Trace
import Verif.Lemmas.Trace
import Verif.Lemmas.Answer
import Verif.Props.Demo
import Verif.Props.Stubbing
import Verif.Props.Reentrancy
import Verif.Lemmas.HistKeep
import Verif.Lemmas.ArgsKeep
import Verif.Props.Recording
import Verif.Props.Unexpected
import Verif.Lemmas.Source
import Verif.Props.Verification
import Verif.Props.Wrapped
import Verif.Props.Handles
import Verif.Props.Scope
import Verif.Props.Isolation
import Verif.Props.Dispatch
import Verif.Props.Lifecycle
import Verif.Props.Spying
import Verif.Props.Lists
import Verif.Props.Tuple
import Verif.Props.ArgMatchers
import Verif.Props.Float
import Verif.Props.Assign
import Verif.Props.Quantifier
import Verif.Props.Events
import Verif.Props.SmartPtr
import Verif.Props.VTable
import Verif.Props.Format
import Verif.Props.Adapters
import Verif.Props.ArgText
import Verif.Props.SingleHeader
import Verif.Props.SingleHeaderRepo
import Verif.Props.PatternText
import Verif.Props.Ownership
import Verif.Props.Concurrency
import Verif.Props.Layout
import Verif.Props.LayoutUse
import Verif.Props.DefaultValue
import Verif.Props.DataMembers
import Verif.Lemmas.Greedy
import Verif.Lemmas.Refine
import Verif.Lemmas.RefineOps
import Verif.Lemmas.RefineCall
import Verif.Lemmas.RefineServe
import Verif.Lemmas.RefineVerify
import Verif.Lemmas.RefineRun
import Verif.Lemmas.RefineTotal
import Verif.Spec.AbstractMock
import Verif.Props.Refinement
import Verif.Model.Unwind
import Verif.Model.Creators
import Verif.Model.FakeObject
import Verif.Props.Unwind
import Verif.Props.Creators
import Verif.Props.FakeObject
import Verif.Model.Chain
import Verif.Model.Returning
import Verif.Props.Chain
import Verif.Props.Returning
import Verif.Model.Comments
import Verif.Props.Comments
import Verif.Model.Stacked
import Verif.Props.Stacked
import Verif.Model.Predicates
import Verif.Props.Predicates
import Verif.Model.Passing
import Verif.Lemmas.Passing
import Verif.Props.Passing
import Verif.Spec.Independent
import Verif.Lemmas.Independent
import Verif.Lemmas.IndependentRun
import Verif.Lemmas.IndependentTrace
import Verif.Props.Independent
import Verif.Model.MoveOnly
import Verif.Props.MoveOnly
import Verif.Spec.ReentrantMock
import Verif.Lemmas.Patch
import Verif.Lemmas.Reenter
import Verif.Lemmas.ReenterPlain
import Verif.Props.ReentrantMock
import Verif.Model.Threads
import Verif.Lemmas.Threads
import Verif.Lemmas.ThreadsRun
import Verif.Props.Threads
import Verif.Model.Naming
import Verif.Props.Naming
import Verif.Model.Kept
import Verif.Spec.Kept
import Verif.Lemmas.Kept
import Verif.Props.Kept
import Verif.Lemmas.Uses
import Verif.Props.ReentrantScript
import Verif.Model.Copies
import Verif.Spec.Copies
import Verif.Lemmas.Copies
import Verif.Props.Copies
import Verif.Model.Finally
import Verif.Props.Finally
import Verif.Model.Rtti
import Verif.Props.Rtti
import Verif.Model.Verifying
import Verif.Spec.Verifying
import Verif.Lemmas.Verifying
import Verif.Props.Verifying
import Verif.Spec.SelfReset
import Verif.Lemmas.Lost
import Verif.Props.SelfReset
import Verif.Model.Handlers
import Verif.Spec.Handlers
import Verif.Lemmas.Handlers
import Verif.Props.Handlers
import Verif.Model.Throwing
import Verif.Spec.Throwing
import Verif.Lemmas.Throwing
import Verif.Props.Throwing
import Verif.Model.Building
import Verif.Spec.Building
import Verif.Lemmas.Building
import Verif.Props.Building
import Verif.Model.Several
import Verif.Spec.Several
import Verif.Lemmas.Several
import Verif.Props.Several
import Verif.Model.Checking
import Verif.Spec.Checking
import Verif.Lemmas.Checking
import Verif.Lemmas.CheckingWhole
import Verif.Props.Checking
import Verif.Model.Functors
import Verif.Spec.Functors
import Verif.Lemmas.Functors
import Verif.Lemmas.FunctorsRun
import Verif.Props.Functors
import Verif.Model.Races
import Verif.Spec.Races
import Verif.Lemmas.RacesCore
import Verif.Lemmas.RacesUse
import Verif.Lemmas.RacesClash
import Verif.Props.Races
import Verif.Spec.RacesMock
import Verif.Lemmas.RacesMock
import Verif.Model.Inside
import Verif.Spec.Inside
import Verif.Lemmas.Inside
import Verif.Lemmas.InsideGentle
import Verif.Props.Inside
import Verif.Model.Printing
import Verif.Spec.Printing
import Verif.Lemmas.Printing
import Verif.Props.Printing
import Verif.Spec.OneThread
import Verif.Lemmas.OneThread
import Verif.Lemmas.OneThreadSteps
import Verif.Lemmas.OneThreadRun
import Verif.Props.OneThread
import Verif.Tests.Kit
import Verif.Tests.Verification
import Verif.Tests.Stubbing
import Verif.Tests.Objects
import Verif.Tests.Components
import Verif.Model.Owners
import Verif.Spec.Owners
import Verif.Lemmas.Owners
import Verif.Lemmas.OwnersStep
import Verif.Lemmas.OwnersLast
import Verif.Lemmas.OwnersReset
import Verif.Props.Owners
import Verif.Lemmas.VerifyingEnds
import Verif.Spec.Uninterrupted
import Verif.Lemmas.Uninterrupted
import Verif.Lemmas.UninterruptedWhole
import Verif.Props.Uninterrupted
import Verif.Spec.Interrupted
import Verif.Lemmas.Interrupted
import Verif.Lemmas.InterruptedRun
import Verif.Props.Interrupted
import Verif.Lemmas.InterruptedStub
import Verif.Props.InterruptedStub
import Verif.Spec.InterruptedFake
import Verif.Lemmas.InterruptedFake
import Verif.Props.InterruptedFake
import Verif.Spec.Spelling
import Verif.Lemmas.Spelling
import Verif.Props.Spelling
import Verif.Spec.SpellingCallbacks
import Verif.Lemmas.SpellingCallbacks
import Verif.Props.SpellingCallbacks
import Verif.Spec.Reorder
import Verif.Lemmas.Reorder
import Verif.Props.Reorder
import Verif.Spec.Moving
import Verif.Lemmas.Moving
import Verif.Props.Moving
import Verif.Spec.Unused
import Verif.Lemmas.Unused
import Verif.Props.Unused
import Verif.Props.Hidden
import Verif.Spec.Checks
import Verif.Lemmas.Checks
import Verif.Props.Checks
import Verif.Spec.LeftOut
import Verif.Lemmas.LeftOut
import Verif.Props.LeftOut
