import Verif.Text.Template
import Verif.Text.Lib

/-!
# The templates of the Go generators

/repo/generator/golang/templates/*.templ and /repo/v2/generator/golang/templates/*.templ, copied without change (by
tools/mktemplates.txt), and what they parse to; the kernel checks the parsing.  Only decode.templ, decodeMap.templ, errors.templ
and structs.templ are different in the two directories.  `base.templ` is the one that is executed (generator.go 119); the others
contain definitions.
-/

namespace GoTempl

open Tmpl

/-- /repo/v2/generator/golang/templates/base.templ -/
def baseSrc : Bytes := str!"{{ if .header -}}
{{template \"headers\" .}}

{{template \"imports\" .}}
{{ end -}}

{{template \"errors\" .}}

{{template \"enums\" .}}

{{template \"messages\" .}}
"

def base_t0 : Bytes := str!"\n\n"

def base_t1 : Bytes := str!"\n"

def base_t2 : Bytes := str!"\n\n"

def base_t3 : Bytes := str!"\n\n"

def base_t4 : Bytes := str!"\n"

def baseBody : Body :=
  .ite (.path none [id!"header"] .nil) (.template id!"headers" (.path none [] .nil) <| .text base_t0 <| .template id!"imports" (.path none [] .nil) <| .text base_t1 <| .nil) (.nil) <| .template id!"errors" (.path none [] .nil) <| .text base_t2 <| .template id!"enums" (.path none [] .nil) <| .text base_t3 <| .template id!"messages" (.path none [] .nil) <| .text base_t4 <| .nil

theorem base_parses : parseBody baseSrc = some baseBody := by decide +kernel

/-- /repo/generator/golang/templates/decode.templ -/
def decodeSrc1 : Bytes := str!"{{define \"decode\"}}
func (x *{{ CamelCase .FullName }}) Decode (b []byte) error {
    if x == nil {
        return NilDecode
    }
    d := polyglot.GetDecoder(b)
    defer d.Return()
    return x.decode(d)
}
{{end}}

{{define \"internalDecode\"}}
func (x *{{CamelCase .FullName}}) decode(d *polyglot.Decoder) error {
    if d.Nil() {
        return nil
    }

{{ $decoding := GetDecodingFields .Fields -}}
{{ $customDecode := CustomDecode -}}
{{ if or $customDecode $decoding.Other $decoding.SliceFields $decoding.MessageFields -}}
var err error
{{ end -}}
{{ $customDecode }}
{{ range $field := $decoding.Other -}}
    {{ $decoder := GetLUTDecoder $field.Kind -}}
    {{ if eq $field.Kind 12 -}} {{/* protoreflect.BytesKind */ -}}
    x.{{ CamelCaseName $field.Name }}, err = d{{ $decoder }}(nil)
    {{ else if eq $field.Kind 14 -}}  {{/* protoreflect.EnumKind */ -}}
    var {{ CamelCaseName $field.Name }}Temp uint32
    {{ CamelCaseName $field.Name }}Temp, err = d{{ $decoder }}()
    x.{{ CamelCaseName $field.Name }} = {{ FindValue $field }}({{ CamelCaseName $field.Name }}Temp)
    {{ else -}}
        x.{{ CamelCaseName $field.Name }}, err = d{{ $decoder }}()
    {{end -}}
    if err != nil {
    return err
    }
{{end -}}

{{ if $decoding.SliceFields -}}
    var sliceSize uint32
{{end -}}
{{ range $field := $decoding.SliceFields -}}
    {{ $kind := GetKind $field.Kind -}}
    sliceSize, err = d.Slice({{ $kind }})
    if err != nil {
    return err
    }
    if uint32(len(x.{{ CamelCaseName $field.Name }})) != sliceSize {
    x.{{ CamelCaseName $field.Name }} = make({{ FindValue $field }}, sliceSize)
    }
    for i := uint32(0); i < sliceSize; i++ {
    {{ $decoder := GetLUTDecoder $field.Kind -}}
    {{ if eq $field.Kind 11 -}} {{/* protoreflect.MessageKind */ -}}
    if x.{{ CamelCaseName $field.Name }}[i] == nil {
    x.{{ CamelCaseName $field.Name }}[i] = New{{ CamelCase $field.Message.FullName }}()
    }
    err = x.{{ CamelCaseName $field.Name }}[i].decode(d)
    {{ else -}}
        x.{{ CamelCaseName $field.Name }}[i], err = d{{ $decoder }}()
    {{end -}}
    if err != nil {
    return err
    }
    }
{{end -}}
{{ range $field := $decoding.MessageFields -}}
    {{ if $field.IsMap -}}
        if !d.Nil() {
        {{ $keyKind := GetKind $field.MapKey.Kind -}}
        {{ $valKind := GetKind $field.MapValue.Kind -}}

        {{ CamelCaseName $field.Name }}Size, err := d.Map({{ $keyKind }}, {{ $valKind }})
        if err != nil {
        return err
        }
        x.{{ CamelCaseName $field.Name }} = New{{ CamelCase $field.FullName }}Map({{ CamelCaseName $field.Name }}Size)
        err = x.{{ CamelCaseName $field.Name }}.decode(d, {{ CamelCaseName $field.Name }}Size)
        if err != nil {
        return err
        }
        }
    {{ else -}}
        if x.{{ CamelCaseName $field.Name }} == nil {
        x.{{ CamelCaseName $field.Name }} = New{{ CamelCase $field.Message.FullName }}()
        }
        err = x.{{ CamelCaseName $field.Name }}.decode(d)
        if err != nil {
        return err
        }
    {{end -}}
{{end -}}
    return nil
}
{{end}}"

/-- /repo/v2/generator/golang/templates/decode.templ -/
def decodeSrc2 : Bytes := str!"{{define \"decode\"}}
func (x *{{ CamelCase .FullName }}) Decode (b []byte) error {
    if x == nil {
        return ErrDecodeNil
    }
    return x.decode(polyglot.Decoder(b))
}
{{end}}

{{define \"internalDecode\"}}
func (x *{{CamelCase .FullName}}) decode(d *polyglot.BufferDecoder) error {
    if d.Nil() {
        return nil
    }

{{ $decoding := GetDecodingFields .Fields -}}
{{ $customDecode := CustomDecode -}}
{{ if or $customDecode $decoding.Other $decoding.SliceFields $decoding.MessageFields -}}
var err error
{{ end -}}
{{ $customDecode }}
{{ range $field := $decoding.Other -}}
    {{ $decoder := GetLUTDecoder $field.Kind -}}
    {{ if eq $field.Kind 12 -}} {{/* protoreflect.BytesKind */ -}}
    x.{{ CamelCaseName $field.Name }}, err = d{{ $decoder }}(x.{{ CamelCaseName $field.Name }})
    {{ else if eq $field.Kind 14 -}}  {{/* protoreflect.EnumKind */ -}}
    var {{ CamelCaseName $field.Name }}Temp uint32
    {{ CamelCaseName $field.Name }}Temp, err = d{{ $decoder }}()
    x.{{ CamelCaseName $field.Name }} = {{ FindValue $field }}({{ CamelCaseName $field.Name }}Temp)
    {{ else -}}
        x.{{ CamelCaseName $field.Name }}, err = d{{ $decoder }}()
    {{end -}}
    if err != nil {
    return err
    }
{{end -}}

{{ if $decoding.SliceFields -}}
    var sliceSize uint32
{{end -}}
{{ range $field := $decoding.SliceFields -}}
    {{ $kind := GetKind $field.Kind -}}
    sliceSize, err = d.Slice({{ $kind }})
    if err != nil {
    return err
    }
    if uint32(len(x.{{ CamelCaseName $field.Name }})) != sliceSize {
    x.{{ CamelCaseName $field.Name }} = make({{ FindValue $field }}, sliceSize)
    }
    for i := uint32(0); i < sliceSize; i++ {
    {{ $decoder := GetLUTDecoder $field.Kind -}}
    {{ if eq $field.Kind 11 -}} {{/* protoreflect.MessageKind */ -}}
    if x.{{ CamelCaseName $field.Name }}[i] == nil {
    x.{{ CamelCaseName $field.Name }}[i] = New{{ CamelCase $field.Message.FullName }}()
    }
    err = x.{{ CamelCaseName $field.Name }}[i].decode(d)
    {{ else -}}
        x.{{ CamelCaseName $field.Name }}[i], err = d{{ $decoder }}()
    {{end -}}
    if err != nil {
    return err
    }
    }
{{end -}}
{{ range $field := $decoding.MessageFields -}}
    {{ if $field.IsMap -}}
        if !d.Nil() {
        {{ $keyKind := GetKind $field.MapKey.Kind -}}
        {{ $valKind := GetKind $field.MapValue.Kind -}}

        {{ CamelCaseName $field.Name }}Size, err := d.Map({{ $keyKind }}, {{ $valKind }})
        if err != nil {
        return err
        }
        x.{{ CamelCaseName $field.Name }} = New{{ CamelCase $field.FullName }}Map({{ CamelCaseName $field.Name }}Size)
        err = x.{{ CamelCaseName $field.Name }}.decode(d, {{ CamelCaseName $field.Name }}Size)
        if err != nil {
        return err
        }
        }
    {{ else -}}
        if !d.Nil() {
        x.{{ CamelCaseName $field.Name }} = New{{ CamelCase $field.Message.FullName }}()
        err = x.{{ CamelCaseName $field.Name }}.decode(d)
        if err != nil {
        return err
        }
        }
    {{end -}}
{{end -}}
    return nil
}
{{end}}
"

def decodeSrc [Lib] : Bytes := Lib.pick decodeSrc1 decodeSrc2

def decode_t0 : Bytes := str!"\nfunc (x *"

def decode_t1 [Lib] : Bytes := Lib.pick
  str!") Decode (b []byte) error {\n    if x == nil {\n        return NilDecode\n    }\n    d := polyglot.GetDecoder(b)\n    defer d.Return()\n    return x.decode(d)\n}\n"
  str!") Decode (b []byte) error {\n    if x == nil {\n        return ErrDecodeNil\n    }\n    return x.decode(polyglot.Decoder(b))\n}\n"

def decodeBody [Lib] : Body :=
  .text decode_t0 <| .action (.call id!"CamelCase" (.cons (.path none [id!"FullName"] .nil) .nil)) <| .text decode_t1 <| .nil

def internalDecode_t0 : Bytes := str!"\nfunc (x *"

def internalDecode_t1 [Lib] : Bytes := Lib.pick
  str!") decode(d *polyglot.Decoder) error {\n    if d.Nil() {\n        return nil\n    }\n\n"
  str!") decode(d *polyglot.BufferDecoder) error {\n    if d.Nil() {\n        return nil\n    }\n\n"

def internalDecode_t2 : Bytes := str!"var err error\n"

def internalDecode_t3 : Bytes := str!"\n"

def internalDecode_t4 : Bytes := str!"x."

def internalDecode_t5 : Bytes := str!", err = d"

def internalDecode_t6 : Bytes := str!"(x."

def internalDecode_t7 : Bytes := str!")\n    "

def internalDecode_t8 : Bytes := str!"var "

def internalDecode_t9 : Bytes := str!"Temp uint32\n    "

def internalDecode_t10 : Bytes := str!"Temp, err = d"

def internalDecode_t11 : Bytes := str!"()\n    x."

def internalDecode_t12 : Bytes := str!" = "

def internalDecode_t13 : Bytes := str!"("

def internalDecode_t14 : Bytes := str!"Temp)\n    "

def internalDecode_t15 : Bytes := str!"x."

def internalDecode_t16 : Bytes := str!", err = d"

def internalDecode_t17 : Bytes := str!"()\n    "

def internalDecode_t18 : Bytes := str!"if err != nil {\n    return err\n    }\n"

/-- The argument of `Bytes`. -/
def internalDecode_bytes [Lib] : Body := Lib.pick
  (.text str!"(nil)\n    " <| .nil)
  (.text internalDecode_t6 <| .action (.call id!"CamelCaseName" (.cons (.path (some id!"field") [id!"Name"] .nil) .nil)) <| .text internalDecode_t7 <| .nil)

def internalDecode_r0 [Lib] : Body :=
  .assign id!"decoder" (.call id!"GetLUTDecoder" (.cons (.path (some id!"field") [id!"Kind"] .nil) .nil)) <| .ite (.call id!"eq" (.cons (.path (some id!"field") [id!"Kind"] .nil) (.cons (.num 12) .nil))) (.text internalDecode_t4 <| .action (.call id!"CamelCaseName" (.cons (.path (some id!"field") [id!"Name"] .nil) .nil)) <| .text internalDecode_t5 <| .action (.path (some id!"decoder") [] .nil) <| internalDecode_bytes) (.ite (.call id!"eq" (.cons (.path (some id!"field") [id!"Kind"] .nil) (.cons (.num 14) .nil))) (.text internalDecode_t8 <| .action (.call id!"CamelCaseName" (.cons (.path (some id!"field") [id!"Name"] .nil) .nil)) <| .text internalDecode_t9 <| .action (.call id!"CamelCaseName" (.cons (.path (some id!"field") [id!"Name"] .nil) .nil)) <| .text internalDecode_t10 <| .action (.path (some id!"decoder") [] .nil) <| .text internalDecode_t11 <| .action (.call id!"CamelCaseName" (.cons (.path (some id!"field") [id!"Name"] .nil) .nil)) <| .text internalDecode_t12 <| .action (.call id!"FindValue" (.cons (.path (some id!"field") [] .nil) .nil)) <| .text internalDecode_t13 <| .action (.call id!"CamelCaseName" (.cons (.path (some id!"field") [id!"Name"] .nil) .nil)) <| .text internalDecode_t14 <| .nil) (.text internalDecode_t15 <| .action (.call id!"CamelCaseName" (.cons (.path (some id!"field") [id!"Name"] .nil) .nil)) <| .text internalDecode_t16 <| .action (.path (some id!"decoder") [] .nil) <| .text internalDecode_t17 <| .nil) <| .nil) <| .text internalDecode_t18 <| .nil

def internalDecode_t19 : Bytes := str!"var sliceSize uint32\n"

def internalDecode_t20 : Bytes := str!"sliceSize, err = d.Slice("

def internalDecode_t21 : Bytes := str!")\n    if err != nil {\n    return err\n    }\n    if uint32(len(x."

def internalDecode_t22 : Bytes := str!")) != sliceSize {\n    x."

def internalDecode_t23 : Bytes := str!" = make("

def internalDecode_t24 : Bytes := str!", sliceSize)\n    }\n    for i := uint32(0); i < sliceSize; i++ {\n    "

def internalDecode_t25 : Bytes := str!"if x."

def internalDecode_t26 : Bytes := str!"[i] == nil {\n    x."

def internalDecode_t27 : Bytes := str!"[i] = New"

def internalDecode_t28 : Bytes := str!"()\n    }\n    err = x."

def internalDecode_t29 : Bytes := str!"[i].decode(d)\n    "

def internalDecode_t30 : Bytes := str!"x."

def internalDecode_t31 : Bytes := str!"[i], err = d"

def internalDecode_t32 : Bytes := str!"()\n    "

def internalDecode_t33 : Bytes := str!"if err != nil {\n    return err\n    }\n    }\n"

def internalDecode_r1 : Body :=
  .assign id!"kind" (.call id!"GetKind" (.cons (.path (some id!"field") [id!"Kind"] .nil) .nil)) <| .text internalDecode_t20 <| .action (.path (some id!"kind") [] .nil) <| .text internalDecode_t21 <| .action (.call id!"CamelCaseName" (.cons (.path (some id!"field") [id!"Name"] .nil) .nil)) <| .text internalDecode_t22 <| .action (.call id!"CamelCaseName" (.cons (.path (some id!"field") [id!"Name"] .nil) .nil)) <| .text internalDecode_t23 <| .action (.call id!"FindValue" (.cons (.path (some id!"field") [] .nil) .nil)) <| .text internalDecode_t24 <| .assign id!"decoder" (.call id!"GetLUTDecoder" (.cons (.path (some id!"field") [id!"Kind"] .nil) .nil)) <| .ite (.call id!"eq" (.cons (.path (some id!"field") [id!"Kind"] .nil) (.cons (.num 11) .nil))) (.text internalDecode_t25 <| .action (.call id!"CamelCaseName" (.cons (.path (some id!"field") [id!"Name"] .nil) .nil)) <| .text internalDecode_t26 <| .action (.call id!"CamelCaseName" (.cons (.path (some id!"field") [id!"Name"] .nil) .nil)) <| .text internalDecode_t27 <| .action (.call id!"CamelCase" (.cons (.path (some id!"field") [id!"Message", id!"FullName"] .nil) .nil)) <| .text internalDecode_t28 <| .action (.call id!"CamelCaseName" (.cons (.path (some id!"field") [id!"Name"] .nil) .nil)) <| .text internalDecode_t29 <| .nil) (.text internalDecode_t30 <| .action (.call id!"CamelCaseName" (.cons (.path (some id!"field") [id!"Name"] .nil) .nil)) <| .text internalDecode_t31 <| .action (.path (some id!"decoder") [] .nil) <| .text internalDecode_t32 <| .nil) <| .text internalDecode_t33 <| .nil

def internalDecode_t34 : Bytes := str!"if !d.Nil() {\n        "

def internalDecode_t35 : Bytes := str!"Size, err := d.Map("

def internalDecode_t36 : Bytes := str!", "

def internalDecode_t37 : Bytes := str!")\n        if err != nil {\n        return err\n        }\n        x."

def internalDecode_t38 : Bytes := str!" = New"

def internalDecode_t39 : Bytes := str!"Map("

def internalDecode_t40 : Bytes := str!"Size)\n        err = x."

def internalDecode_t41 : Bytes := str!".decode(d, "

def internalDecode_t42 : Bytes := str!"Size)\n        if err != nil {\n        return err\n        }\n        }\n    "

def internalDecode_t43 : Bytes := str!"if !d.Nil() {\n        x."

def internalDecode_t44 : Bytes := str!" = New"

def internalDecode_t45 : Bytes := str!"()\n        err = x."

def internalDecode_t46 : Bytes := str!".decode(d)\n        if err != nil {\n        return err\n        }\n        }\n    "

/-- A message field. -/
def internalDecode_message [Lib] : Body := Lib.pick
  (.text str!"if x." <| .action (.call id!"CamelCaseName" (.cons (.path (some id!"field") [id!"Name"] .nil) .nil)) <| .text str!" == nil {\n        x." <| .action (.call id!"CamelCaseName" (.cons (.path (some id!"field") [id!"Name"] .nil) .nil)) <| .text str!" = New" <| .action (.call id!"CamelCase" (.cons (.path (some id!"field") [id!"Message", id!"FullName"] .nil) .nil)) <| .text str!"()\n        }\n        err = x." <| .action (.call id!"CamelCaseName" (.cons (.path (some id!"field") [id!"Name"] .nil) .nil)) <| .text str!".decode(d)\n        if err != nil {\n        return err\n        }\n    " <| .nil)
  (.text internalDecode_t43 <| .action (.call id!"CamelCaseName" (.cons (.path (some id!"field") [id!"Name"] .nil) .nil)) <| .text internalDecode_t44 <| .action (.call id!"CamelCase" (.cons (.path (some id!"field") [id!"Message", id!"FullName"] .nil) .nil)) <| .text internalDecode_t45 <| .action (.call id!"CamelCaseName" (.cons (.path (some id!"field") [id!"Name"] .nil) .nil)) <| .text internalDecode_t46 <| .nil)

def internalDecode_r2 [Lib] : Body :=
  .ite (.path (some id!"field") [id!"IsMap"] .nil) (.text internalDecode_t34 <| .assign id!"keyKind" (.call id!"GetKind" (.cons (.path (some id!"field") [id!"MapKey", id!"Kind"] .nil) .nil)) <| .assign id!"valKind" (.call id!"GetKind" (.cons (.path (some id!"field") [id!"MapValue", id!"Kind"] .nil) .nil)) <| .action (.call id!"CamelCaseName" (.cons (.path (some id!"field") [id!"Name"] .nil) .nil)) <| .text internalDecode_t35 <| .action (.path (some id!"keyKind") [] .nil) <| .text internalDecode_t36 <| .action (.path (some id!"valKind") [] .nil) <| .text internalDecode_t37 <| .action (.call id!"CamelCaseName" (.cons (.path (some id!"field") [id!"Name"] .nil) .nil)) <| .text internalDecode_t38 <| .action (.call id!"CamelCase" (.cons (.path (some id!"field") [id!"FullName"] .nil) .nil)) <| .text internalDecode_t39 <| .action (.call id!"CamelCaseName" (.cons (.path (some id!"field") [id!"Name"] .nil) .nil)) <| .text internalDecode_t40 <| .action (.call id!"CamelCaseName" (.cons (.path (some id!"field") [id!"Name"] .nil) .nil)) <| .text internalDecode_t41 <| .action (.call id!"CamelCaseName" (.cons (.path (some id!"field") [id!"Name"] .nil) .nil)) <| .text internalDecode_t42 <| .nil) internalDecode_message <| .nil

def internalDecode_t47 : Bytes := str!"return nil\n}\n"

def internalDecodeBody [Lib] : Body :=
  .text internalDecode_t0 <| .action (.call id!"CamelCase" (.cons (.path none [id!"FullName"] .nil) .nil)) <| .text internalDecode_t1 <| .assign id!"decoding" (.call id!"GetDecodingFields" (.cons (.path none [id!"Fields"] .nil) .nil)) <| .assign id!"customDecode" (.call id!"CustomDecode" .nil) <| .ite (.call id!"or" (.cons (.path (some id!"customDecode") [] .nil) (.cons (.path (some id!"decoding") [id!"Other"] .nil) (.cons (.path (some id!"decoding") [id!"SliceFields"] .nil) (.cons (.path (some id!"decoding") [id!"MessageFields"] .nil) .nil))))) (.text internalDecode_t2 <| .nil) (.nil) <| .action (.path (some id!"customDecode") [] .nil) <| .text internalDecode_t3 <| .range none id!"field" (.path (some id!"decoding") [id!"Other"] .nil) internalDecode_r0 <| .ite (.path (some id!"decoding") [id!"SliceFields"] .nil) (.text internalDecode_t19 <| .nil) (.nil) <| .range none id!"field" (.path (some id!"decoding") [id!"SliceFields"] .nil) internalDecode_r1 <| .range none id!"field" (.path (some id!"decoding") [id!"MessageFields"] .nil) internalDecode_r2 <| .text internalDecode_t47 <| .nil

theorem decode_parses [lib : Lib] : parseDefinitions decodeSrc = some [(id!"decode", decodeBody), (id!"internalDecode", internalDecodeBody)] := by cases lib <;> decide +kernel

/-- /repo/generator/golang/templates/decodeMap.templ -/
def decodeMapSrc1 : Bytes := str!"{{define \"decodeMap\"}}
func (x {{CamelCase .FullName}}Map) decode(d *polyglot.Decoder, size uint32) error {
    if size == 0 {
        return nil
    }
    var k {{ FindValue .MapKey }}
    {{ if eq .MapKey.Kind 14 -}} {{/* protoreflect.EnumKind */ -}}
        var {{ CamelCase .MapKey.Name }}Temp uint32
    {{end -}}
    var v {{ FindValue .MapValue }}
    {{ if eq .MapValue.Kind 14 -}} {{/* protoreflect.EnumKind */ -}}
    var {{ CamelCaseName .MapValue.Name }}Temp uint32
    {{end -}}
    var err error
    for i := uint32(0); i < size; i++ {
        {{ $keyDecoder := GetLUTDecoder .MapKey.Kind -}}
        {{ if and (eq $keyDecoder \"\") (eq .MapKey.Kind 11) -}} {{/* protoreflect.MessageKind */ -}}
        k = New{{ CamelCase .MapKey.Message.FullName }}()
        err = k.decode(d)
        {{else -}}
            {{ if eq .MapKey.Kind 14 -}}  {{/* protoreflect.EnumKind */ -}}
            {{ CamelCase .MapKey.Name }}Temp, err = d{{$keyDecoder}}()
                k = {{ FindValue .MapKey }}({{ CamelCase .MapKey.Name }}Temp)
            {{else -}}
                k, err = d{{$keyDecoder}}()
            {{end -}}
        {{end -}}
        if err != nil {
            return err
        }
        {{ $valDecoder := GetLUTDecoder .MapValue.Kind -}}
        {{ if and (eq $valDecoder \"\") (eq .MapValue.Kind 11) -}} {{/* protoreflect.MessageKind */ -}}
        v = New{{ CamelCase .MapValue.Message.FullName }}()
        err = v.decode(d)
        {{else -}}
            {{ if eq .MapValue.Kind 14 -}} {{/* protoreflect.EnumKind */ -}}
                {{CamelCaseName .MapValue.Name}}Temp, err = d{{$valDecoder}}()
                v = {{ FindValue .MapValue }}({{ CamelCaseName .MapValue.Name }}Temp)
            {{else -}}
                v, err = d{{$valDecoder}}()
            {{end -}}
        {{end -}}

        if err != nil {
            return err
        }
        x[k] = v
    }
    return nil
}
{{end}}"

/-- /repo/v2/generator/golang/templates/decodeMap.templ -/
def decodeMapSrc2 : Bytes := str!"{{define \"decodeMap\"}}
func (x {{CamelCase .FullName}}Map) decode(d *polyglot.BufferDecoder, size uint32) error {
    if size == 0 {
        return nil
    }
    var k {{ FindValue .MapKey }}
    {{ if eq .MapKey.Kind 14 -}} {{/* protoreflect.EnumKind */ -}}
        var {{ CamelCase .MapKey.Name }}Temp uint32
    {{end -}}
    var v {{ FindValue .MapValue }}
    {{ if eq .MapValue.Kind 14 -}} {{/* protoreflect.EnumKind */ -}}
    var {{ CamelCaseName .MapValue.Name }}Temp uint32
    {{end -}}
    var err error
    for i := uint32(0); i < size; i++ {
        {{ $keyDecoder := GetLUTDecoder .MapKey.Kind -}}
        {{ if and (eq $keyDecoder \"\") (eq .MapKey.Kind 11) -}} {{/* protoreflect.MessageKind */ -}}
        k = New{{ CamelCase .MapKey.Message.FullName }}()
        err = k.decode(d)
        {{else -}}
            {{ if eq .MapKey.Kind 14 -}}  {{/* protoreflect.EnumKind */ -}}
            {{ CamelCase .MapKey.Name }}Temp, err = d{{$keyDecoder}}()
                k = {{ FindValue .MapKey }}({{ CamelCase .MapKey.Name }}Temp)
            {{else -}}
                k, err = d{{$keyDecoder}}()
            {{end -}}
        {{end -}}
        if err != nil {
            return err
        }
        {{ $valDecoder := GetLUTDecoder .MapValue.Kind -}}
        {{ if and (eq $valDecoder \"\") (eq .MapValue.Kind 11) -}} {{/* protoreflect.MessageKind */ -}}
        v = New{{ CamelCase .MapValue.Message.FullName }}()
        err = v.decode(d)
        {{else -}}
            {{ if eq .MapValue.Kind 14 -}} {{/* protoreflect.EnumKind */ -}}
                {{CamelCaseName .MapValue.Name}}Temp, err = d{{$valDecoder}}()
                v = {{ FindValue .MapValue }}({{ CamelCaseName .MapValue.Name }}Temp)
            {{else -}}
                v, err = d{{$valDecoder}}()
            {{end -}}
        {{end -}}

        if err != nil {
            return err
        }
        x[k] = v
    }
    return nil
}
{{end}}"

def decodeMapSrc [Lib] : Bytes := Lib.pick decodeMapSrc1 decodeMapSrc2

def decodeMap_t0 : Bytes := str!"\nfunc (x "

def decodeMap_t1 [Lib] : Bytes := Lib.pick
  str!"Map) decode(d *polyglot.Decoder, size uint32) error {\n    if size == 0 {\n        return nil\n    }\n    var k "
  str!"Map) decode(d *polyglot.BufferDecoder, size uint32) error {\n    if size == 0 {\n        return nil\n    }\n    var k "

def decodeMap_t2 : Bytes := str!"\n    "

def decodeMap_t3 : Bytes := str!"var "

def decodeMap_t4 : Bytes := str!"Temp uint32\n    "

def decodeMap_t5 : Bytes := str!"var v "

def decodeMap_t6 : Bytes := str!"\n    "

def decodeMap_t7 : Bytes := str!"var "

def decodeMap_t8 : Bytes := str!"Temp uint32\n    "

def decodeMap_t9 : Bytes := str!"var err error\n    for i := uint32(0); i < size; i++ {\n        "

def decodeMap_t10 : Bytes := str!"k = New"

def decodeMap_t11 : Bytes := str!"()\n        err = k.decode(d)\n        "

def decodeMap_t12 : Bytes := str!"Temp, err = d"

def decodeMap_t13 : Bytes := str!"()\n                k = "

def decodeMap_t14 : Bytes := str!"("

def decodeMap_t15 : Bytes := str!"Temp)\n            "

def decodeMap_t16 : Bytes := str!"k, err = d"

def decodeMap_t17 : Bytes := str!"()\n            "

def decodeMap_t18 : Bytes := str!"if err != nil {\n            return err\n        }\n        "

def decodeMap_t19 : Bytes := str!"v = New"

def decodeMap_t20 : Bytes := str!"()\n        err = v.decode(d)\n        "

def decodeMap_t21 : Bytes := str!"Temp, err = d"

def decodeMap_t22 : Bytes := str!"()\n                v = "

def decodeMap_t23 : Bytes := str!"("

def decodeMap_t24 : Bytes := str!"Temp)\n            "

def decodeMap_t25 : Bytes := str!"v, err = d"

def decodeMap_t26 : Bytes := str!"()\n            "

def decodeMap_t27 : Bytes := str!"if err != nil {\n            return err\n        }\n        x[k] = v\n    }\n    return nil\n}\n"

def decodeMapBody [Lib] : Body :=
  .text decodeMap_t0 <| .action (.call id!"CamelCase" (.cons (.path none [id!"FullName"] .nil) .nil)) <| .text decodeMap_t1 <| .action (.call id!"FindValue" (.cons (.path none [id!"MapKey"] .nil) .nil)) <| .text decodeMap_t2 <| .ite (.call id!"eq" (.cons (.path none [id!"MapKey", id!"Kind"] .nil) (.cons (.num 14) .nil))) (.text decodeMap_t3 <| .action (.call id!"CamelCase" (.cons (.path none [id!"MapKey", id!"Name"] .nil) .nil)) <| .text decodeMap_t4 <| .nil) (.nil) <| .text decodeMap_t5 <| .action (.call id!"FindValue" (.cons (.path none [id!"MapValue"] .nil) .nil)) <| .text decodeMap_t6 <| .ite (.call id!"eq" (.cons (.path none [id!"MapValue", id!"Kind"] .nil) (.cons (.num 14) .nil))) (.text decodeMap_t7 <| .action (.call id!"CamelCaseName" (.cons (.path none [id!"MapValue", id!"Name"] .nil) .nil)) <| .text decodeMap_t8 <| .nil) (.nil) <| .text decodeMap_t9 <| .assign id!"keyDecoder" (.call id!"GetLUTDecoder" (.cons (.path none [id!"MapKey", id!"Kind"] .nil) .nil)) <| .ite (.call id!"and" (.cons (.call id!"eq" (.cons (.path (some id!"keyDecoder") [] .nil) (.cons (.str str!"") .nil))) (.cons (.call id!"eq" (.cons (.path none [id!"MapKey", id!"Kind"] .nil) (.cons (.num 11) .nil))) .nil))) (.text decodeMap_t10 <| .action (.call id!"CamelCase" (.cons (.path none [id!"MapKey", id!"Message", id!"FullName"] .nil) .nil)) <| .text decodeMap_t11 <| .nil) (.ite (.call id!"eq" (.cons (.path none [id!"MapKey", id!"Kind"] .nil) (.cons (.num 14) .nil))) (.action (.call id!"CamelCase" (.cons (.path none [id!"MapKey", id!"Name"] .nil) .nil)) <| .text decodeMap_t12 <| .action (.path (some id!"keyDecoder") [] .nil) <| .text decodeMap_t13 <| .action (.call id!"FindValue" (.cons (.path none [id!"MapKey"] .nil) .nil)) <| .text decodeMap_t14 <| .action (.call id!"CamelCase" (.cons (.path none [id!"MapKey", id!"Name"] .nil) .nil)) <| .text decodeMap_t15 <| .nil) (.text decodeMap_t16 <| .action (.path (some id!"keyDecoder") [] .nil) <| .text decodeMap_t17 <| .nil) <| .nil) <| .text decodeMap_t18 <| .assign id!"valDecoder" (.call id!"GetLUTDecoder" (.cons (.path none [id!"MapValue", id!"Kind"] .nil) .nil)) <| .ite (.call id!"and" (.cons (.call id!"eq" (.cons (.path (some id!"valDecoder") [] .nil) (.cons (.str str!"") .nil))) (.cons (.call id!"eq" (.cons (.path none [id!"MapValue", id!"Kind"] .nil) (.cons (.num 11) .nil))) .nil))) (.text decodeMap_t19 <| .action (.call id!"CamelCase" (.cons (.path none [id!"MapValue", id!"Message", id!"FullName"] .nil) .nil)) <| .text decodeMap_t20 <| .nil) (.ite (.call id!"eq" (.cons (.path none [id!"MapValue", id!"Kind"] .nil) (.cons (.num 14) .nil))) (.action (.call id!"CamelCaseName" (.cons (.path none [id!"MapValue", id!"Name"] .nil) .nil)) <| .text decodeMap_t21 <| .action (.path (some id!"valDecoder") [] .nil) <| .text decodeMap_t22 <| .action (.call id!"FindValue" (.cons (.path none [id!"MapValue"] .nil) .nil)) <| .text decodeMap_t23 <| .action (.call id!"CamelCaseName" (.cons (.path none [id!"MapValue", id!"Name"] .nil) .nil)) <| .text decodeMap_t24 <| .nil) (.text decodeMap_t25 <| .action (.path (some id!"valDecoder") [] .nil) <| .text decodeMap_t26 <| .nil) <| .nil) <| .text decodeMap_t27 <| .nil

theorem decodeMap_parses [lib : Lib] : parseDefinitions decodeMapSrc = some [(id!"decodeMap", decodeMapBody)] := by cases lib <;> decide +kernel

/-- /repo/v2/generator/golang/templates/encode.templ -/
def encodeSrc : Bytes := str!"{{define \"encode\"}}
func (x *{{ CamelCase .FullName }}) Encode (b *polyglot.Buffer) {
    if x == nil {
        polyglot.Encoder(b).Nil()
    } else {
        {{ CustomEncode }}
        {{ $encoding := GetEncodingFields .Fields -}}
        {{ if $encoding.Values -}}
            polyglot.Encoder(b){{ range $val := $encoding.Values -}}{{ $val -}}{{end -}}
        {{ end -}}
        {{ if $encoding.SliceFields -}}
            {{template \"encodeSlices\" $encoding -}}
        {{end -}}
        {{ if $encoding.MessageFields -}}
        {{template \"encodeMessages\" $encoding -}}
        {{end -}}
    }
}
{{end}}

{{define \"encodeSlices\"}}
    {{ range $field := .SliceFields -}}
        {{ $encoder := GetLUTEncoder $field.Kind -}}
        {{ if and (eq $encoder \"\") (eq $field.Kind 11) -}} {{/* protoreflect.MessageKind */ -}}
        polyglot.Encoder(b).Slice(uint32(len(x.{{ CamelCaseName $field.Name }})), polyglot.AnyKind)
        for _, v := range x.{{CamelCaseName $field.Name}} {
            v.Encode(b)
        }
        {{else -}}
        polyglot.Encoder(b).Slice(uint32(len(x.{{ CamelCaseName $field.Name }})), {{ GetKindLUT $field.Kind }})
        for _, v := range x.{{ CamelCaseName $field.Name }} {
            polyglot.Encoder(b){{$encoder}}(v)
        }
        {{end -}}
    {{end -}}
{{end}}

{{define \"encodeMessages\"}}
    {{ range $field := .MessageFields -}}
        x.{{ CamelCaseName $field.Name }}.Encode(b)
    {{end -}}
{{end}}"

def encode_t0 : Bytes := str!"\nfunc (x *"

def encode_t1 : Bytes := str!") Encode (b *polyglot.Buffer) {\n    if x == nil {\n        polyglot.Encoder(b).Nil()\n    } else {\n        "

def encode_t2 : Bytes := str!"\n        "

def encode_t3 : Bytes := str!"polyglot.Encoder(b)"

def encode_r0 : Body :=
  .action (.path (some id!"val") [] .nil) <| .nil

def encode_t4 : Bytes := str!"}\n}\n"

def encodeBody : Body :=
  .text encode_t0 <| .action (.call id!"CamelCase" (.cons (.path none [id!"FullName"] .nil) .nil)) <| .text encode_t1 <| .action (.call id!"CustomEncode" .nil) <| .text encode_t2 <| .assign id!"encoding" (.call id!"GetEncodingFields" (.cons (.path none [id!"Fields"] .nil) .nil)) <| .ite (.path (some id!"encoding") [id!"Values"] .nil) (.text encode_t3 <| .range none id!"val" (.path (some id!"encoding") [id!"Values"] .nil) encode_r0 <| .nil) (.nil) <| .ite (.path (some id!"encoding") [id!"SliceFields"] .nil) (.template id!"encodeSlices" (.path (some id!"encoding") [] .nil) <| .nil) (.nil) <| .ite (.path (some id!"encoding") [id!"MessageFields"] .nil) (.template id!"encodeMessages" (.path (some id!"encoding") [] .nil) <| .nil) (.nil) <| .text encode_t4 <| .nil

def encodeSlices_t0 : Bytes := str!"\n    "

def encodeSlices_t1 : Bytes := str!"polyglot.Encoder(b).Slice(uint32(len(x."

def encodeSlices_t2 : Bytes := str!")), polyglot.AnyKind)\n        for _, v := range x."

def encodeSlices_t3 : Bytes := str!" {\n            v.Encode(b)\n        }\n        "

def encodeSlices_t4 : Bytes := str!"polyglot.Encoder(b).Slice(uint32(len(x."

def encodeSlices_t5 : Bytes := str!")), "

def encodeSlices_t6 : Bytes := str!")\n        for _, v := range x."

def encodeSlices_t7 : Bytes := str!" {\n            polyglot.Encoder(b)"

def encodeSlices_t8 : Bytes := str!"(v)\n        }\n        "

def encodeSlices_r0 : Body :=
  .assign id!"encoder" (.call id!"GetLUTEncoder" (.cons (.path (some id!"field") [id!"Kind"] .nil) .nil)) <| .ite (.call id!"and" (.cons (.call id!"eq" (.cons (.path (some id!"encoder") [] .nil) (.cons (.str str!"") .nil))) (.cons (.call id!"eq" (.cons (.path (some id!"field") [id!"Kind"] .nil) (.cons (.num 11) .nil))) .nil))) (.text encodeSlices_t1 <| .action (.call id!"CamelCaseName" (.cons (.path (some id!"field") [id!"Name"] .nil) .nil)) <| .text encodeSlices_t2 <| .action (.call id!"CamelCaseName" (.cons (.path (some id!"field") [id!"Name"] .nil) .nil)) <| .text encodeSlices_t3 <| .nil) (.text encodeSlices_t4 <| .action (.call id!"CamelCaseName" (.cons (.path (some id!"field") [id!"Name"] .nil) .nil)) <| .text encodeSlices_t5 <| .action (.call id!"GetKindLUT" (.cons (.path (some id!"field") [id!"Kind"] .nil) .nil)) <| .text encodeSlices_t6 <| .action (.call id!"CamelCaseName" (.cons (.path (some id!"field") [id!"Name"] .nil) .nil)) <| .text encodeSlices_t7 <| .action (.path (some id!"encoder") [] .nil) <| .text encodeSlices_t8 <| .nil) <| .nil

def encodeSlicesBody : Body :=
  .text encodeSlices_t0 <| .range none id!"field" (.path none [id!"SliceFields"] .nil) encodeSlices_r0 <| .nil

def encodeMessages_t0 : Bytes := str!"\n    "

def encodeMessages_t1 : Bytes := str!"x."

def encodeMessages_t2 : Bytes := str!".Encode(b)\n    "

def encodeMessages_r0 : Body :=
  .text encodeMessages_t1 <| .action (.call id!"CamelCaseName" (.cons (.path (some id!"field") [id!"Name"] .nil) .nil)) <| .text encodeMessages_t2 <| .nil

def encodeMessagesBody : Body :=
  .text encodeMessages_t0 <| .range none id!"field" (.path none [id!"MessageFields"] .nil) encodeMessages_r0 <| .nil

theorem encode_parses : parseDefinitions encodeSrc = some [(id!"encode", encodeBody), (id!"encodeSlices", encodeSlicesBody), (id!"encodeMessages", encodeMessagesBody)] := by decide +kernel

/-- /repo/v2/generator/golang/templates/encodeMap.templ -/
def encodeMapSrc : Bytes := str!"{{define \"encodeMap\"}}
    func (x {{ CamelCase .FullName }}Map) Encode (b *polyglot.Buffer) {
        {{ $keyKind := GetKind .MapKey.Kind -}}
        {{ $valKind := GetKind .MapValue.Kind -}}
        
        if x == nil {
            polyglot.Encoder(b).Map(0, {{$keyKind}}, {{$valKind}})
        } else { 
            polyglot.Encoder(b).Map(uint32(len(x)), {{$keyKind}}, {{$valKind}})
            for k, v := range x {
                {{ $keyEncoder := GetLUTEncoder .MapKey.Kind -}}
                {{ if and (eq $keyEncoder \"\") (eq .MapKey.Kind 11) -}} {{/* protoreflect.MessageKind */ -}}
                    k.Encode(b)
                {{else -}}
                    {{ if eq .MapKey.Kind 14 -}}  {{/* protoreflect.EnumKind */ -}}
                        polyglot.Encoder(b) {{$keyEncoder}} (uint32(k))
                    {{else -}}
                        polyglot.Encoder(b) {{$keyEncoder}} (k)
                    {{end -}}
                {{end -}}
                {{ $valEncoder := GetLUTEncoder .MapValue.Kind -}}
                {{ if and (eq $valEncoder \"\") (eq .MapValue.Kind 11) -}} {{/* protoreflect.MessageKind */ -}}
                    v.Encode(b)
                {{else -}}
                    {{ if eq .MapValue.Kind 14 -}} {{/* protoreflect.EnumKind */ -}}
                        polyglot.Encoder(b) {{$valEncoder}} (uint32(v))
                    {{else -}}
                        polyglot.Encoder(b) {{$valEncoder}} (v)
                    {{end -}}
                {{end -}}
            }
        }
    }
{{end}}
"

def encodeMap_t0 : Bytes := str!"\n    func (x "

def encodeMap_t1 : Bytes := str!"Map) Encode (b *polyglot.Buffer) {\n        "

def encodeMap_t2 : Bytes := str!"if x == nil {\n            polyglot.Encoder(b).Map(0, "

def encodeMap_t3 : Bytes := str!", "

def encodeMap_t4 : Bytes := str!")\n        } else { \n            polyglot.Encoder(b).Map(uint32(len(x)), "

def encodeMap_t5 : Bytes := str!", "

def encodeMap_t6 : Bytes := str!")\n            for k, v := range x {\n                "

def encodeMap_t7 : Bytes := str!"k.Encode(b)\n                "

def encodeMap_t8 : Bytes := str!"polyglot.Encoder(b) "

def encodeMap_t9 : Bytes := str!" (uint32(k))\n                    "

def encodeMap_t10 : Bytes := str!"polyglot.Encoder(b) "

def encodeMap_t11 : Bytes := str!" (k)\n                    "

def encodeMap_t12 : Bytes := str!"v.Encode(b)\n                "

def encodeMap_t13 : Bytes := str!"polyglot.Encoder(b) "

def encodeMap_t14 : Bytes := str!" (uint32(v))\n                    "

def encodeMap_t15 : Bytes := str!"polyglot.Encoder(b) "

def encodeMap_t16 : Bytes := str!" (v)\n                    "

def encodeMap_t17 : Bytes := str!"}\n        }\n    }\n"

def encodeMapBody : Body :=
  .text encodeMap_t0 <| .action (.call id!"CamelCase" (.cons (.path none [id!"FullName"] .nil) .nil)) <| .text encodeMap_t1 <| .assign id!"keyKind" (.call id!"GetKind" (.cons (.path none [id!"MapKey", id!"Kind"] .nil) .nil)) <| .assign id!"valKind" (.call id!"GetKind" (.cons (.path none [id!"MapValue", id!"Kind"] .nil) .nil)) <| .text encodeMap_t2 <| .action (.path (some id!"keyKind") [] .nil) <| .text encodeMap_t3 <| .action (.path (some id!"valKind") [] .nil) <| .text encodeMap_t4 <| .action (.path (some id!"keyKind") [] .nil) <| .text encodeMap_t5 <| .action (.path (some id!"valKind") [] .nil) <| .text encodeMap_t6 <| .assign id!"keyEncoder" (.call id!"GetLUTEncoder" (.cons (.path none [id!"MapKey", id!"Kind"] .nil) .nil)) <| .ite (.call id!"and" (.cons (.call id!"eq" (.cons (.path (some id!"keyEncoder") [] .nil) (.cons (.str str!"") .nil))) (.cons (.call id!"eq" (.cons (.path none [id!"MapKey", id!"Kind"] .nil) (.cons (.num 11) .nil))) .nil))) (.text encodeMap_t7 <| .nil) (.ite (.call id!"eq" (.cons (.path none [id!"MapKey", id!"Kind"] .nil) (.cons (.num 14) .nil))) (.text encodeMap_t8 <| .action (.path (some id!"keyEncoder") [] .nil) <| .text encodeMap_t9 <| .nil) (.text encodeMap_t10 <| .action (.path (some id!"keyEncoder") [] .nil) <| .text encodeMap_t11 <| .nil) <| .nil) <| .assign id!"valEncoder" (.call id!"GetLUTEncoder" (.cons (.path none [id!"MapValue", id!"Kind"] .nil) .nil)) <| .ite (.call id!"and" (.cons (.call id!"eq" (.cons (.path (some id!"valEncoder") [] .nil) (.cons (.str str!"") .nil))) (.cons (.call id!"eq" (.cons (.path none [id!"MapValue", id!"Kind"] .nil) (.cons (.num 11) .nil))) .nil))) (.text encodeMap_t12 <| .nil) (.ite (.call id!"eq" (.cons (.path none [id!"MapValue", id!"Kind"] .nil) (.cons (.num 14) .nil))) (.text encodeMap_t13 <| .action (.path (some id!"valEncoder") [] .nil) <| .text encodeMap_t14 <| .nil) (.text encodeMap_t15 <| .action (.path (some id!"valEncoder") [] .nil) <| .text encodeMap_t16 <| .nil) <| .nil) <| .text encodeMap_t17 <| .nil

theorem encodeMap_parses : parseDefinitions encodeMapSrc = some [(id!"encodeMap", encodeMapBody)] := by decide +kernel

/-- /repo/v2/generator/golang/templates/enums.templ -/
def enumsSrc : Bytes := str!"{{define \"enums\"}}
{{range $i, $e := (MakeIterable .enums.Len) -}}
{{ $enum := ($.enums.Get $i) }}
{{template \"enum\" $enum}}
{{end -}}
{{end}}

{{define \"enum\"}}
{{ $enumName := (CamelCase $.FullName) }}
type {{ $enumName }} uint32

const (
{{range $i, $v := (MakeIterable $.Values.Len) -}}
    {{ $val := ($.Values.Get $i) -}}
    {{CamelCase $val.FullName}} = {{ $enumName }}({{ $i }})
{{end -}}
)
{{end}}

"

def enums_t0 : Bytes := str!"\n"

def enums_t1 : Bytes := str!"\n"

def enums_t2 : Bytes := str!"\n"

def enums_r0 : Body :=
  .assign id!"enum" (.path (some 0) [id!"enums", id!"Get"] (.cons (.path (some id!"i") [] .nil) .nil)) <| .text enums_t1 <| .template id!"enum" (.path (some id!"enum") [] .nil) <| .text enums_t2 <| .nil

def enumsBody : Body :=
  .text enums_t0 <| .range (some id!"i") id!"e" (.call id!"MakeIterable" (.cons (.path none [id!"enums", id!"Len"] .nil) .nil)) enums_r0 <| .nil

def enum_t0 : Bytes := str!"\n"

def enum_t1 : Bytes := str!"\ntype "

def enum_t2 : Bytes := str!" uint32\n\nconst (\n"

def enum_t3 : Bytes := str!" = "

def enum_t4 : Bytes := str!"("

def enum_t5 : Bytes := str!")\n"

def enum_r0 : Body :=
  .assign id!"val" (.path (some 0) [id!"Values", id!"Get"] (.cons (.path (some id!"i") [] .nil) .nil)) <| .action (.call id!"CamelCase" (.cons (.path (some id!"val") [id!"FullName"] .nil) .nil)) <| .text enum_t3 <| .action (.path (some id!"enumName") [] .nil) <| .text enum_t4 <| .action (.path (some id!"i") [] .nil) <| .text enum_t5 <| .nil

def enum_t6 : Bytes := str!")\n"

def enumBody : Body :=
  .text enum_t0 <| .assign id!"enumName" (.call id!"CamelCase" (.cons (.path (some 0) [id!"FullName"] .nil) .nil)) <| .text enum_t1 <| .action (.path (some id!"enumName") [] .nil) <| .text enum_t2 <| .range (some id!"i") id!"v" (.call id!"MakeIterable" (.cons (.path (some 0) [id!"Values", id!"Len"] .nil) .nil)) enum_r0 <| .text enum_t6 <| .nil

theorem enums_parses : parseDefinitions enumsSrc = some [(id!"enums", enumsBody), (id!"enum", enumBody)] := by decide +kernel

/-- /repo/generator/golang/templates/errors.templ -/
def errorsSrc1 : Bytes := str!"{{define \"errors\"}}
var (
    NilDecode = errors.New(\"cannot decode into a nil root struct\")
)
{{end}}"

/-- /repo/v2/generator/golang/templates/errors.templ -/
def errorsSrc2 : Bytes := str!"{{define \"errors\"}}
var (
    ErrDecodeNil = errors.New(\"cannot decode into a nil root struct\")
)
{{end}}
"

def errorsSrc [Lib] : Bytes := Lib.pick errorsSrc1 errorsSrc2

def errors_t0 [Lib] : Bytes := Lib.pick
  str!"\nvar (\n    NilDecode = errors.New(\"cannot decode into a nil root struct\")\n)\n"
  str!"\nvar (\n    ErrDecodeNil = errors.New(\"cannot decode into a nil root struct\")\n)\n"

def errorsBody [Lib] : Body :=
  .text errors_t0 <| .nil

theorem errors_parses [lib : Lib] : parseDefinitions errorsSrc = some [(id!"errors", errorsBody)] := by cases lib <;> decide +kernel

/-- /repo/v2/generator/golang/templates/headers.templ -/
def headersSrc : Bytes := str!"{{define \"headers\"}}
// Code generated by polyglot {{ .pluginVersion }}, DO NOT EDIT.
// source: {{ .sourcePath }}

package {{ .package }}
{{end}}"

def headers_t0 : Bytes := str!"\n// Code generated by polyglot "

def headers_t1 : Bytes := str!", DO NOT EDIT.\n// source: "

def headers_t2 : Bytes := str!"\n\npackage "

def headers_t3 : Bytes := str!"\n"

def headersBody : Body :=
  .text headers_t0 <| .action (.path none [id!"pluginVersion"] .nil) <| .text headers_t1 <| .action (.path none [id!"sourcePath"] .nil) <| .text headers_t2 <| .action (.path none [id!"package"] .nil) <| .text headers_t3 <| .nil

theorem headers_parses : parseDefinitions headersSrc = some [(id!"headers", headersBody)] := by decide +kernel

/-- /repo/v2/generator/golang/templates/imports.templ -/
def importsSrc : Bytes := str!"{{define \"imports\"}}
import (
{{range $im := .requiredImports -}}
    \"{{$im}}\"
{{end -}}
)
{{end}}"

def imports_t0 : Bytes := str!"\nimport (\n"

def imports_t1 : Bytes := str!"\""

def imports_t2 : Bytes := str!"\"\n"

def imports_r0 : Body :=
  .text imports_t1 <| .action (.path (some id!"im") [] .nil) <| .text imports_t2 <| .nil

def imports_t3 : Bytes := str!")\n"

def importsBody : Body :=
  .text imports_t0 <| .range none id!"im" (.path none [id!"requiredImports"] .nil) imports_r0 <| .text imports_t3 <| .nil

theorem imports_parses : parseDefinitions importsSrc = some [(id!"imports", importsBody)] := by decide +kernel

/-- /repo/v2/generator/golang/templates/messages.templ -/
def messagesSrc : Bytes := str!"{{define \"messages\"}}
{{range $i, $e := (MakeIterable .messages.Len) -}}
    {{ $message := $.messages.Get $i }}
    {{range $i, $e := (MakeIterable $message.Enums.Len) -}}
        {{ $enum := ($message.Enums.Get $i) }}
        {{template \"enum\" $enum}}
    {{end}}
    {{template \"structs\" $message}}
{{end}}
{{end}}"

def messages_t0 : Bytes := str!"\n"

def messages_t1 : Bytes := str!"\n    "

def messages_t2 : Bytes := str!"\n        "

def messages_t3 : Bytes := str!"\n    "

def messages_r1 : Body :=
  .assign id!"enum" (.path (some id!"message") [id!"Enums", id!"Get"] (.cons (.path (some id!"i") [] .nil) .nil)) <| .text messages_t2 <| .template id!"enum" (.path (some id!"enum") [] .nil) <| .text messages_t3 <| .nil

def messages_t4 : Bytes := str!"\n    "

def messages_t5 : Bytes := str!"\n"

def messages_r0 : Body :=
  .assign id!"message" (.path (some 0) [id!"messages", id!"Get"] (.cons (.path (some id!"i") [] .nil) .nil)) <| .text messages_t1 <| .range (some id!"i") id!"e" (.call id!"MakeIterable" (.cons (.path (some id!"message") [id!"Enums", id!"Len"] .nil) .nil)) messages_r1 <| .text messages_t4 <| .template id!"structs" (.path (some id!"message") [] .nil) <| .text messages_t5 <| .nil

def messages_t6 : Bytes := str!"\n"

def messagesBody : Body :=
  .text messages_t0 <| .range (some id!"i") id!"e" (.call id!"MakeIterable" (.cons (.path none [id!"messages", id!"Len"] .nil) .nil)) messages_r0 <| .text messages_t6 <| .nil

theorem messages_parses : parseDefinitions messagesSrc = some [(id!"messages", messagesBody)] := by decide +kernel

/-- /repo/generator/golang/templates/structs.templ -/
def structsSrc1 : Bytes := str!"{{define \"structs\"}}
    {{ range $i, $v := (MakeIterable $.Messages.Len) }}
        {{ $message := $.Messages.Get $i }}
        {{ if not $message.IsMapEntry }}
            {{template \"structs\" $message}}
        {{end}}
    {{end}}
    {{ range $i, $v := (MakeIterable $.Fields.Len) -}}
        {{ $field := $.Fields.Get $i }}
        {{ if $field.IsMap }}
            {{ $mapKeyValue := FindValue $field.MapKey }}
            {{ $mapValueValue := FindValue $field.MapValue }}
            type {{ CamelCase $field.FullName }}Map map[{{ $mapKeyValue }}]{{ $mapValueValue }}
            func New{{ CamelCase $field.FullName }}Map (size uint32) map[{{ $mapKeyValue }}]{{$mapValueValue}} {
                return make(map[{{ $mapKeyValue }}]{{ $mapValueValue }}, size)
            }

            {{template \"encodeMap\" $field}}
            {{template \"decodeMap\" $field}}
        {{end}}
    {{end -}}
    type {{ CamelCase .FullName }} struct {
        {{ CustomFields }}

        {{ range $i, $v := (MakeIterable $.Fields.Len) -}}
            {{ $field := $.Fields.Get $i -}}
            {{ $value := FindValue $field -}}
            {{ CamelCaseName $field.Name }} {{ $value }}
        {{end -}}
    }

    {{template \"getFunc\" .}}
    {{template \"error\" .}}
    {{template \"encode\" .}}
    {{template \"decode\" .}}
    {{template \"internalDecode\" .}}
{{end}}

{{define \"getFunc\"}}
func New{{ CamelCase .FullName }}() *{{ CamelCase .FullName }} {
    return &{{ CamelCase .FullName }}{
        {{ range $i, $v := (MakeIterable .Fields.Len) -}}
            {{ $field := $.Fields.Get $i -}}
            {{ if and (eq $field.Kind 11) (ne $field.Cardinality 3) -}} {{/* protoreflect.MessageKind protoreflect.Repeated */ -}}
                {{ CamelCaseName $field.Name }}: New{{ CamelCase $field.Message.FullName }}(),
            {{end -}}
        {{end -}}
    }
}
{{end}}

{{define \"error\"}}
func (x *{{CamelCase .FullName}}) Error(b *polyglot.Buffer, err error) {
    polyglot.Encoder(b).Error(err)
}
{{end}}"

/-- /repo/v2/generator/golang/templates/structs.templ -/
def structsSrc2 : Bytes := str!"{{define \"structs\"}}
    {{ range $i, $v := (MakeIterable $.Messages.Len) }}
        {{ $message := $.Messages.Get $i }}
        {{ if not $message.IsMapEntry }}
            {{template \"structs\" $message}}
        {{end}}
    {{end}}
    {{ range $i, $v := (MakeIterable $.Fields.Len) -}}
        {{ $field := $.Fields.Get $i }}
        {{ if $field.IsMap }}
            {{ $mapKeyValue := FindValue $field.MapKey }}
            {{ $mapValueValue := FindValue $field.MapValue }}
            type {{ CamelCase $field.FullName }}Map map[{{ $mapKeyValue }}]{{ $mapValueValue }}
            func New{{ CamelCase $field.FullName }}Map (size uint32) map[{{ $mapKeyValue }}]{{$mapValueValue}} {
                return make(map[{{ $mapKeyValue }}]{{ $mapValueValue }}, size)
            }

            {{template \"encodeMap\" $field}}
            {{template \"decodeMap\" $field}}
        {{end}}
    {{end -}}
    type {{ CamelCase .FullName }} struct {
        {{ CustomFields }}

        {{ range $i, $v := (MakeIterable $.Fields.Len) -}}
            {{ $field := $.Fields.Get $i -}}
            {{ $value := FindValue $field -}}
            {{ CamelCaseName $field.Name }} {{ $value }}
        {{end -}}
    }

    {{template \"getFunc\" .}}
    {{template \"error\" .}}
    {{template \"encode\" .}}
    {{template \"decode\" .}}
    {{template \"internalDecode\" .}}
{{end}}

{{define \"getFunc\"}}
func New{{ CamelCase .FullName }}() *{{ CamelCase .FullName }} {
    return &{{ CamelCase .FullName }}{}
}
{{end}}

{{define \"error\"}}
func (x *{{CamelCase .FullName}}) Error(b *polyglot.Buffer, err error) {
    polyglot.Encoder(b).Error(err)
}
{{end}}
"

def structsSrc [Lib] : Bytes := Lib.pick structsSrc1 structsSrc2

def structs_t0 : Bytes := str!"\n    "

def structs_t1 : Bytes := str!"\n        "

def structs_t2 : Bytes := str!"\n        "

def structs_t3 : Bytes := str!"\n            "

def structs_t4 : Bytes := str!"\n        "

def structs_t5 : Bytes := str!"\n    "

def structs_r0 : Body :=
  .text structs_t1 <| .assign id!"message" (.path (some 0) [id!"Messages", id!"Get"] (.cons (.path (some id!"i") [] .nil) .nil)) <| .text structs_t2 <| .ite (.call id!"not" (.cons (.path (some id!"message") [id!"IsMapEntry"] .nil) .nil)) (.text structs_t3 <| .template id!"structs" (.path (some id!"message") [] .nil) <| .text structs_t4 <| .nil) (.nil) <| .text structs_t5 <| .nil

def structs_t6 : Bytes := str!"\n    "

def structs_t7 : Bytes := str!"\n        "

def structs_t8 : Bytes := str!"\n            "

def structs_t9 : Bytes := str!"\n            "

def structs_t10 : Bytes := str!"\n            type "

def structs_t11 : Bytes := str!"Map map["

def structs_t12 : Bytes := str!"]"

def structs_t13 : Bytes := str!"\n            func New"

def structs_t14 : Bytes := str!"Map (size uint32) map["

def structs_t15 : Bytes := str!"]"

def structs_t16 : Bytes := str!" {\n                return make(map["

def structs_t17 : Bytes := str!"]"

def structs_t18 : Bytes := str!", size)\n            }\n\n            "

def structs_t19 : Bytes := str!"\n            "

def structs_t20 : Bytes := str!"\n        "

def structs_t21 : Bytes := str!"\n    "

def structs_r1 : Body :=
  .assign id!"field" (.path (some 0) [id!"Fields", id!"Get"] (.cons (.path (some id!"i") [] .nil) .nil)) <| .text structs_t7 <| .ite (.path (some id!"field") [id!"IsMap"] .nil) (.text structs_t8 <| .assign id!"mapKeyValue" (.call id!"FindValue" (.cons (.path (some id!"field") [id!"MapKey"] .nil) .nil)) <| .text structs_t9 <| .assign id!"mapValueValue" (.call id!"FindValue" (.cons (.path (some id!"field") [id!"MapValue"] .nil) .nil)) <| .text structs_t10 <| .action (.call id!"CamelCase" (.cons (.path (some id!"field") [id!"FullName"] .nil) .nil)) <| .text structs_t11 <| .action (.path (some id!"mapKeyValue") [] .nil) <| .text structs_t12 <| .action (.path (some id!"mapValueValue") [] .nil) <| .text structs_t13 <| .action (.call id!"CamelCase" (.cons (.path (some id!"field") [id!"FullName"] .nil) .nil)) <| .text structs_t14 <| .action (.path (some id!"mapKeyValue") [] .nil) <| .text structs_t15 <| .action (.path (some id!"mapValueValue") [] .nil) <| .text structs_t16 <| .action (.path (some id!"mapKeyValue") [] .nil) <| .text structs_t17 <| .action (.path (some id!"mapValueValue") [] .nil) <| .text structs_t18 <| .template id!"encodeMap" (.path (some id!"field") [] .nil) <| .text structs_t19 <| .template id!"decodeMap" (.path (some id!"field") [] .nil) <| .text structs_t20 <| .nil) (.nil) <| .text structs_t21 <| .nil

def structs_t22 : Bytes := str!"type "

def structs_t23 : Bytes := str!" struct {\n        "

def structs_t24 : Bytes := str!"\n\n        "

def structs_t25 : Bytes := str!" "

def structs_t26 : Bytes := str!"\n        "

def structs_r2 : Body :=
  .assign id!"field" (.path (some 0) [id!"Fields", id!"Get"] (.cons (.path (some id!"i") [] .nil) .nil)) <| .assign id!"value" (.call id!"FindValue" (.cons (.path (some id!"field") [] .nil) .nil)) <| .action (.call id!"CamelCaseName" (.cons (.path (some id!"field") [id!"Name"] .nil) .nil)) <| .text structs_t25 <| .action (.path (some id!"value") [] .nil) <| .text structs_t26 <| .nil

def structs_t27 : Bytes := str!"}\n\n    "

def structs_t28 : Bytes := str!"\n    "

def structs_t29 : Bytes := str!"\n    "

def structs_t30 : Bytes := str!"\n    "

def structs_t31 : Bytes := str!"\n    "

def structs_t32 : Bytes := str!"\n"

def structsBody : Body :=
  .text structs_t0 <| .range (some id!"i") id!"v" (.call id!"MakeIterable" (.cons (.path (some 0) [id!"Messages", id!"Len"] .nil) .nil)) structs_r0 <| .text structs_t6 <| .range (some id!"i") id!"v" (.call id!"MakeIterable" (.cons (.path (some 0) [id!"Fields", id!"Len"] .nil) .nil)) structs_r1 <| .text structs_t22 <| .action (.call id!"CamelCase" (.cons (.path none [id!"FullName"] .nil) .nil)) <| .text structs_t23 <| .action (.call id!"CustomFields" .nil) <| .text structs_t24 <| .range (some id!"i") id!"v" (.call id!"MakeIterable" (.cons (.path (some 0) [id!"Fields", id!"Len"] .nil) .nil)) structs_r2 <| .text structs_t27 <| .template id!"getFunc" (.path none [] .nil) <| .text structs_t28 <| .template id!"error" (.path none [] .nil) <| .text structs_t29 <| .template id!"encode" (.path none [] .nil) <| .text structs_t30 <| .template id!"decode" (.path none [] .nil) <| .text structs_t31 <| .template id!"internalDecode" (.path none [] .nil) <| .text structs_t32 <| .nil

def getFunc_t0 : Bytes := str!"\nfunc New"

def getFunc_t1 : Bytes := str!"() *"

def getFunc_t2 : Bytes := str!" {\n    return &"

def getFunc_t3 : Bytes := str!"{}\n}\n"

/-- The elements of the struct (v1). -/
def getFunc_r0 : Body :=
  .assign id!"field" (.path (some 0) [id!"Fields", id!"Get"] (.cons (.path (some id!"i") [] .nil) .nil)) <| .ite (.call id!"and" (.cons (.call id!"eq" (.cons (.path (some id!"field") [id!"Kind"] .nil) (.cons (.num 11) .nil))) (.cons (.call id!"ne" (.cons (.path (some id!"field") [id!"Cardinality"] .nil) (.cons (.num 3) .nil))) .nil))) (.action (.call id!"CamelCaseName" (.cons (.path (some id!"field") [id!"Name"] .nil) .nil)) <| .text str!": New" <| .action (.call id!"CamelCase" (.cons (.path (some id!"field") [id!"Message", id!"FullName"] .nil) .nil)) <| .text str!"(),\n            " <| .nil) (.nil) <| .nil

/-- What follows the last name. -/
def getFunc_rest [Lib] : Body := Lib.pick
  (.text str!"{\n        " <| .range (some id!"i") id!"v" (.call id!"MakeIterable" (.cons (.path none [id!"Fields", id!"Len"] .nil) .nil)) getFunc_r0 <| .text str!"}\n}\n" <| .nil)
  (.text getFunc_t3 <| .nil)

def getFuncBody [Lib] : Body :=
  .text getFunc_t0 <| .action (.call id!"CamelCase" (.cons (.path none [id!"FullName"] .nil) .nil)) <| .text getFunc_t1 <| .action (.call id!"CamelCase" (.cons (.path none [id!"FullName"] .nil) .nil)) <| .text getFunc_t2 <| .action (.call id!"CamelCase" (.cons (.path none [id!"FullName"] .nil) .nil)) <| getFunc_rest

def error_t0 : Bytes := str!"\nfunc (x *"

def error_t1 : Bytes := str!") Error(b *polyglot.Buffer, err error) {\n    polyglot.Encoder(b).Error(err)\n}\n"

def errorBody : Body :=
  .text error_t0 <| .action (.call id!"CamelCase" (.cons (.path none [id!"FullName"] .nil) .nil)) <| .text error_t1 <| .nil

theorem structs_parses [lib : Lib] : parseDefinitions structsSrc = some [(id!"structs", structsBody), (id!"getFunc", getFuncBody), (id!"error", errorBody)] := by cases lib <;> decide +kernel

/-- All named templates (generator.go 64 `ParseFS`). -/
def defs [Lib] : List (Nat × Body) :=
  [(id!"decode", decodeBody),
   (id!"internalDecode", internalDecodeBody),
   (id!"decodeMap", decodeMapBody),
   (id!"encode", encodeBody),
   (id!"encodeSlices", encodeSlicesBody),
   (id!"encodeMessages", encodeMessagesBody),
   (id!"encodeMap", encodeMapBody),
   (id!"enums", enumsBody),
   (id!"enum", enumBody),
   (id!"errors", errorsBody),
   (id!"headers", headersBody),
   (id!"imports", importsBody),
   (id!"messages", messagesBody),
   (id!"structs", structsBody),
   (id!"getFunc", getFuncBody),
   (id!"error", errorBody)]

/-- The template files with definitions (templates.go embeds `*.templ`), in the order of their names. -/
def sources [Lib] : List Bytes :=
  [decodeSrc, decodeMapSrc, encodeSrc, encodeMapSrc, enumsSrc, errorsSrc, headersSrc, importsSrc, messagesSrc, structsSrc]

/-- generator.go 64 `ParseFS`: what the files define. -/
def parsed [Lib] : Option (List (Nat × Body)) := (sources.mapM parseDefinitions).map List.flatten

theorem parsed_eq [Lib] : parsed = some defs := by
  simp only [parsed, sources, List.mapM_cons, List.mapM_nil, decode_parses, decodeMap_parses, encode_parses, encodeMap_parses, enums_parses, errors_parses,
    headers_parses, imports_parses, messages_parses, structs_parses]
  rfl

end GoTempl
