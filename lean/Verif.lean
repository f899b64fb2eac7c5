import Verif.Model.Auth
import Verif.Model.Authorization
import Verif.Model.Base64
import Verif.Model.Basic
import Verif.Model.Builder
import Verif.Model.Client
import Verif.Model.Container
import Verif.Model.Credentials
import Verif.Model.CtxtDrop
import Verif.Model.Debug
import Verif.Model.Derive
import Verif.Model.DeriveCode
import Verif.Model.DeriveItem
import Verif.Model.DeriveNames
import Verif.Model.DeriveSpans
import Verif.Model.Features
import Verif.Model.Fmt
import Verif.Model.HelperTypes
import Verif.Model.JsClock
import Verif.Model.Macros
import Verif.Model.OAuthParameter
import Verif.Model.Ordered
import Verif.Model.ParameterList
import Verif.Model.PercentEncoding
import Verif.Model.Recorder
import Verif.Model.Request
import Verif.Model.Serde
import Verif.Model.Serializer
import Verif.Model.Server
import Verif.Model.Sha1
import Verif.Model.SignatureMethod
import Verif.Model.SynCursor
import Verif.Model.Urlencode
import Verif.Model.UsePath
import Verif.Model.Utf8
import Verif.Proofs.Auth
import Verif.Proofs.Authorization
import Verif.Proofs.Authorize
import Verif.Proofs.Base64
import Verif.Proofs.Bytes
import Verif.Proofs.Cases
import Verif.Proofs.Client
import Verif.Proofs.Closed
import Verif.Proofs.Decimal
import Verif.Proofs.Derive
import Verif.Proofs.DeriveCode
import Verif.Proofs.Emit
import Verif.Proofs.Features
import Verif.Proofs.FormParse
import Verif.Proofs.Order
import Verif.Proofs.ParameterList
import Verif.Proofs.Parse
import Verif.Proofs.PercentEncoding
import Verif.Proofs.Release
import Verif.Proofs.Rsa
import Verif.Proofs.Server
import Verif.Proofs.ServerExample
import Verif.Proofs.Signers
import Verif.Proofs.Signing
import Verif.Proofs.Simulate
import Verif.Proofs.TextOnly
import Verif.Proofs.Trace
import Verif.Proofs.Uri
import Verif.Proofs.Urlencode
import Verif.Proofs.Utf8
import Verif.Proofs.Verify
import Verif.Proofs.Worlds
import Verif.Proofs.Writers
import Verif.Properties.BaseString
import Verif.Properties.BaseUri
import Verif.Properties.Builder
import Verif.Properties.Client
import Verif.Properties.Collision
import Verif.Properties.Container
import Verif.Properties.ContentType
import Verif.Properties.Credentials
import Verif.Properties.CtxtDrop
import Verif.Properties.Debug
import Verif.Properties.Derive
import Verif.Properties.DeriveAccepts
import Verif.Properties.DeriveCode
import Verif.Properties.DeriveDocs
import Verif.Properties.DeriveErrors
import Verif.Properties.DeriveFallback
import Verif.Properties.DeriveMacro
import Verif.Properties.DeriveNames
import Verif.Properties.DeriveScope
import Verif.Properties.DeriveSpans
import Verif.Properties.DeriveTokens
import Verif.Properties.Either
import Verif.Properties.Encoding
import Verif.Properties.Exact
import Verif.Properties.Features
import Verif.Properties.Fed
import Verif.Properties.Fmt
import Verif.Properties.Form
import Verif.Properties.FormParameters
import Verif.Properties.Header
import Verif.Properties.HelperTypes
import Verif.Properties.Injection
import Verif.Properties.Interleave
import Verif.Properties.JsClock
import Verif.Properties.Macros
import Verif.Properties.Names
import Verif.Properties.Nonce
import Verif.Properties.Once
import Verif.Properties.Ordered
import Verif.Properties.Panics
import Verif.Properties.ParameterList
import Verif.Properties.Plaintext
import Verif.Properties.QueryUri
import Verif.Properties.Release
import Verif.Properties.Reply
import Verif.Properties.Response
import Verif.Properties.Rfc
import Verif.Properties.RfcDerived
import Verif.Properties.Said
import Verif.Properties.Sendable
import Verif.Properties.Serde
import Verif.Properties.Server
import Verif.Properties.ServerAccepts
import Verif.Properties.ServerBinds
import Verif.Properties.ServerBytes
import Verif.Properties.ServerRfc
import Verif.Properties.ServerSecrets
import Verif.Properties.ServerUri
import Verif.Properties.Service
import Verif.Properties.Sha1
import Verif.Properties.Signature
import Verif.Properties.Size
import Verif.Properties.Status
import Verif.Properties.Twice
import Verif.Properties.TwoRuns
import Verif.Properties.Unwind
import Verif.Properties.UsePath
import Verif.Properties.Wire
import Verif.Properties.WirePlaintext
import Verif.Properties.Writers
import Verif.Spec.Auth
import Verif.Spec.Authorization
import Verif.Spec.Base64
import Verif.Spec.Calls
import Verif.Spec.Collision
import Verif.Spec.Decimal
import Verif.Spec.Derive
import Verif.Spec.DeriveCode
import Verif.Spec.DeriveDocs
import Verif.Spec.DeriveErrors
import Verif.Spec.DeriveGrammar
import Verif.Spec.DeriveMacro
import Verif.Spec.DeriveNames
import Verif.Spec.DeriveScope
import Verif.Spec.DeriveSpans
import Verif.Spec.DeriveTokens
import Verif.Spec.F64
import Verif.Spec.Features
import Verif.Spec.Fmt
import Verif.Spec.Form
import Verif.Spec.FormText
import Verif.Spec.HelperTypes
import Verif.Spec.Hmac
import Verif.Spec.Macros
import Verif.Spec.MediaType
import Verif.Spec.Order
import Verif.Spec.Ordered
import Verif.Spec.Parse
import Verif.Spec.PercentEncoding
import Verif.Spec.Plaintext
import Verif.Spec.Received
import Verif.Spec.Reply
import Verif.Spec.Rfc5849
import Verif.Spec.Rsa
import Verif.Spec.Run
import Verif.Spec.Said
import Verif.Spec.Sendable
import Verif.Spec.Server
import Verif.Spec.Service
import Verif.Spec.Sha1
import Verif.Spec.SignCalls
import Verif.Spec.Size
import Verif.Spec.TextOnly
import Verif.Spec.Uri
import Verif.Spec.UriParts
import Verif.Spec.UseTree
import Verif.Spec.Utf8
import Verif.Spec.Wire
import Verif.Spec.Writer
import Verif.Vectors
import Verif.VectorsDerive
import Verif.VectorsRsa
