import Verif.Text.Template

/-!
# The templates of the TypeScript generator

/repo/generator/typescript/templates/*.templ, copied without change (by tools/mktstemplates.txt), and what they parse to; the
kernel checks the parsing.  /repo/v2/generator/typescript/templates has the same files.  `body.templ` and then `head.templ` are
executed (generator.go 144, 152); the others contain definitions.
-/

namespace TsTempl

open Tmpl

/-- /repo/generator/typescript/templates/body.templ -/
def bodySrc : Bytes := str!"{{template \"enums\" .}}

{{template \"messages\" .}}
"

def body_t0 : Bytes := str!"\n\n"

def body_t1 : Bytes := str!"\n"

def bodyBody : Body :=
  .template id!"enums" (.path none [] .nil) <| .text body_t0 <| .template id!"messages" (.path none [] .nil) <| .text body_t1 <| .nil

theorem body_parses : parseBody bodySrc = some bodyBody := by decide +kernel

/-- /repo/generator/typescript/templates/head.templ -/
def headSrc : Bytes := str!"{{template \"headers\" .}}

{{template \"imports\" .}}"

def head_t0 : Bytes := str!"\n\n"

def headBody : Body :=
  .template id!"headers" (.path none [] .nil) <| .text head_t0 <| .template id!"imports" (.path none [] .nil) <| .nil

theorem head_parses : parseBody headSrc = some headBody := by decide +kernel

/-- /repo/generator/typescript/templates/decode.templ -/
def decodeSrc : Bytes := str!"{{define \"decode\"}}
    static decode(buf: Uint8Array): { buf: Uint8Array, value: {{ CamelCase .FullName }}} {
        let decoded = buf
        
        {{ $decoding := GetDecodingFields .Fields -}}
        {{ range $field := $decoding.SliceFields -}}
            {{ $val := FindValue $field }}
            {{ $kind := GetKind $field.Kind -}}
            {{ $decoder := GetLUTDecoder $field.Kind -}}

            let {{ LowercaseCamelCaseName $field.Name }} = {{ TrackDependency \"decodeArray\" }}(decoded)
            decoded = {{ LowercaseCamelCaseName $field.Name }}.buf
            const {{ LowercaseCamelCaseName $field.Name }}Temp: { value: {{ $val }} } = { value: [] }
            for (let i = 0; i < {{ LowercaseCamelCaseName $field.Name }}.size; i++) {
                {{ if eq $field.Kind 14 -}}  {{/* protoreflect.EnumKind */ -}}
                    let elementEnum = {{ TrackDependency \"decodeUint32\" }}(decoded)
                    const element = { value: elementEnum as {{ $val }} }
                    decoded = element.bufEnum
                {{ else if eq $field.Kind 11 -}}  {{/* protoreflect.MessageKind */ -}}
                    let element = {{ TrimSuffix $val \"[]\" }}.decode(decoded)
                    decoded = element.buf
                {{ else -}}
                    let element = {{ $decoder }}(decoded)
                    decoded = element.buf
                {{end -}}
                {{ LowercaseCamelCaseName $field.Name }}Temp.value.push(element.value)
            }
        {{ end -}}

        {{ range $field := $decoding.MessageFields -}}
            {{ $val := FindValue $field }}
            {{ if $field.IsMap -}}
                {{ template \"decodeMap\" $field -}}
            {{ else -}}
                let {{ LowercaseCamelCaseName $field.Name }}Temp = {{ $val }}.decode(decoded)
                decoded = {{ LowercaseCamelCaseName $field.Name }}Temp.buf
            {{ end -}}
        {{ end -}}

        {{ range $field := $decoding.Other -}}
            {{ $val := FindValue $field }}
            {{ $decoder := GetLUTDecoder $field.Kind -}}
            {{ if eq $field.Kind 14 -}}  {{/* protoreflect.EnumKind */ -}}
                let {{ LowercaseCamelCaseName $field.Name }}U32 = {{ TrackDependency \"decodeUint32\" }}(decoded)
                const {{ LowercaseCamelCaseName $field.Name }}Temp = { value: {{ LowercaseCamelCaseName $field.Name }}U32 as {{ $val }} }
                decoded = {{ LowercaseCamelCaseName $field.Name }}U32.buf
            {{ else -}}
                let {{ LowercaseCamelCaseName $field.Name }}Temp = {{ $decoder }}(decoded)
                decoded = {{ LowercaseCamelCaseName $field.Name }}Temp.buf
            {{end -}}
        {{end}}

        return { buf: decoded, value: new {{ CamelCase .FullName }}(
            {{ range $field := $decoding.Other -}}
                {{ LowercaseCamelCaseName $field.Name }}Temp.value,
            {{end -}}
            {{ range $field := $decoding.SliceFields -}}
                {{ LowercaseCamelCaseName $field.Name }}Temp.value,
            {{ end -}}
            {{ range $field := $decoding.MessageFields -}}
                {{ LowercaseCamelCaseName $field.Name }}Temp.value,
            {{ end -}}
        )}
    }
{{end}}
"

def decode_t0 : Bytes := str!"\n    static decode(buf: Uint8Array): { buf: Uint8Array, value: "

def decode_t1 : Bytes := str!"} {\n        let decoded = buf\n        \n        "

def decode_t2 : Bytes := str!"\n            "

def decode_t3 : Bytes := str!"let "

def decode_t4 : Bytes := str!" = "

def decode_t5 : Bytes := str!"(decoded)\n            decoded = "

def decode_t6 : Bytes := str!".buf\n            const "

def decode_t7 : Bytes := str!"Temp: { value: "

def decode_t8 : Bytes := str!" } = { value: [] }\n            for (let i = 0; i < "

def decode_t9 : Bytes := str!".size; i++) {\n                "

def decode_t10 : Bytes := str!"let elementEnum = "

def decode_t11 : Bytes := str!"(decoded)\n                    const element = { value: elementEnum as "

def decode_t12 : Bytes := str!" }\n                    decoded = element.bufEnum\n                "

def decode_t13 : Bytes := str!"let element = "

def decode_t14 : Bytes := str!".decode(decoded)\n                    decoded = element.buf\n                "

def decode_t15 : Bytes := str!"let element = "

def decode_t16 : Bytes := str!"(decoded)\n                    decoded = element.buf\n                "

def decode_t17 : Bytes := str!"Temp.value.push(element.value)\n            }\n        "

def decode_r0 : Body :=
  .assign id!"val" (.call id!"FindValue" (.cons (.path (some id!"field") [] .nil) .nil)) <| .text decode_t2 <| .assign id!"kind" (.call id!"GetKind" (.cons (.path (some id!"field") [id!"Kind"] .nil) .nil)) <| .assign id!"decoder" (.call id!"GetLUTDecoder" (.cons (.path (some id!"field") [id!"Kind"] .nil) .nil)) <| .text decode_t3 <| .action (.call id!"LowercaseCamelCaseName" (.cons (.path (some id!"field") [id!"Name"] .nil) .nil)) <| .text decode_t4 <| .action (.call id!"TrackDependency" (.cons (.str str!"decodeArray") .nil)) <| .text decode_t5 <| .action (.call id!"LowercaseCamelCaseName" (.cons (.path (some id!"field") [id!"Name"] .nil) .nil)) <| .text decode_t6 <| .action (.call id!"LowercaseCamelCaseName" (.cons (.path (some id!"field") [id!"Name"] .nil) .nil)) <| .text decode_t7 <| .action (.path (some id!"val") [] .nil) <| .text decode_t8 <| .action (.call id!"LowercaseCamelCaseName" (.cons (.path (some id!"field") [id!"Name"] .nil) .nil)) <| .text decode_t9 <| .ite (.call id!"eq" (.cons (.path (some id!"field") [id!"Kind"] .nil) (.cons (.num 14) .nil))) (.text decode_t10 <| .action (.call id!"TrackDependency" (.cons (.str str!"decodeUint32") .nil)) <| .text decode_t11 <| .action (.path (some id!"val") [] .nil) <| .text decode_t12 <| .nil) (.ite (.call id!"eq" (.cons (.path (some id!"field") [id!"Kind"] .nil) (.cons (.num 11) .nil))) (.text decode_t13 <| .action (.call id!"TrimSuffix" (.cons (.path (some id!"val") [] .nil) (.cons (.str str!"[]") .nil))) <| .text decode_t14 <| .nil) (.text decode_t15 <| .action (.path (some id!"decoder") [] .nil) <| .text decode_t16 <| .nil) <| .nil) <| .action (.call id!"LowercaseCamelCaseName" (.cons (.path (some id!"field") [id!"Name"] .nil) .nil)) <| .text decode_t17 <| .nil

def decode_t18 : Bytes := str!"\n            "

def decode_t19 : Bytes := str!"let "

def decode_t20 : Bytes := str!"Temp = "

def decode_t21 : Bytes := str!".decode(decoded)\n                decoded = "

def decode_t22 : Bytes := str!"Temp.buf\n            "

def decode_r1 : Body :=
  .assign id!"val" (.call id!"FindValue" (.cons (.path (some id!"field") [] .nil) .nil)) <| .text decode_t18 <| .ite (.path (some id!"field") [id!"IsMap"] .nil) (.template id!"decodeMap" (.path (some id!"field") [] .nil) <| .nil) (.text decode_t19 <| .action (.call id!"LowercaseCamelCaseName" (.cons (.path (some id!"field") [id!"Name"] .nil) .nil)) <| .text decode_t20 <| .action (.path (some id!"val") [] .nil) <| .text decode_t21 <| .action (.call id!"LowercaseCamelCaseName" (.cons (.path (some id!"field") [id!"Name"] .nil) .nil)) <| .text decode_t22 <| .nil) <| .nil

def decode_t23 : Bytes := str!"\n            "

def decode_t24 : Bytes := str!"let "

def decode_t25 : Bytes := str!"U32 = "

def decode_t26 : Bytes := str!"(decoded)\n                const "

def decode_t27 : Bytes := str!"Temp = { value: "

def decode_t28 : Bytes := str!"U32 as "

def decode_t29 : Bytes := str!" }\n                decoded = "

def decode_t30 : Bytes := str!"U32.buf\n            "

def decode_t31 : Bytes := str!"let "

def decode_t32 : Bytes := str!"Temp = "

def decode_t33 : Bytes := str!"(decoded)\n                decoded = "

def decode_t34 : Bytes := str!"Temp.buf\n            "

def decode_r2 : Body :=
  .assign id!"val" (.call id!"FindValue" (.cons (.path (some id!"field") [] .nil) .nil)) <| .text decode_t23 <| .assign id!"decoder" (.call id!"GetLUTDecoder" (.cons (.path (some id!"field") [id!"Kind"] .nil) .nil)) <| .ite (.call id!"eq" (.cons (.path (some id!"field") [id!"Kind"] .nil) (.cons (.num 14) .nil))) (.text decode_t24 <| .action (.call id!"LowercaseCamelCaseName" (.cons (.path (some id!"field") [id!"Name"] .nil) .nil)) <| .text decode_t25 <| .action (.call id!"TrackDependency" (.cons (.str str!"decodeUint32") .nil)) <| .text decode_t26 <| .action (.call id!"LowercaseCamelCaseName" (.cons (.path (some id!"field") [id!"Name"] .nil) .nil)) <| .text decode_t27 <| .action (.call id!"LowercaseCamelCaseName" (.cons (.path (some id!"field") [id!"Name"] .nil) .nil)) <| .text decode_t28 <| .action (.path (some id!"val") [] .nil) <| .text decode_t29 <| .action (.call id!"LowercaseCamelCaseName" (.cons (.path (some id!"field") [id!"Name"] .nil) .nil)) <| .text decode_t30 <| .nil) (.text decode_t31 <| .action (.call id!"LowercaseCamelCaseName" (.cons (.path (some id!"field") [id!"Name"] .nil) .nil)) <| .text decode_t32 <| .action (.path (some id!"decoder") [] .nil) <| .text decode_t33 <| .action (.call id!"LowercaseCamelCaseName" (.cons (.path (some id!"field") [id!"Name"] .nil) .nil)) <| .text decode_t34 <| .nil) <| .nil

def decode_t35 : Bytes := str!"\n\n        return { buf: decoded, value: new "

def decode_t36 : Bytes := str!"(\n            "

def decode_t37 : Bytes := str!"Temp.value,\n            "

def decode_r3 : Body :=
  .action (.call id!"LowercaseCamelCaseName" (.cons (.path (some id!"field") [id!"Name"] .nil) .nil)) <| .text decode_t37 <| .nil

def decode_t38 : Bytes := str!"Temp.value,\n            "

def decode_r4 : Body :=
  .action (.call id!"LowercaseCamelCaseName" (.cons (.path (some id!"field") [id!"Name"] .nil) .nil)) <| .text decode_t38 <| .nil

def decode_t39 : Bytes := str!"Temp.value,\n            "

def decode_r5 : Body :=
  .action (.call id!"LowercaseCamelCaseName" (.cons (.path (some id!"field") [id!"Name"] .nil) .nil)) <| .text decode_t39 <| .nil

def decode_t40 : Bytes := str!")}\n    }\n"

def decodeBody : Body :=
  .text decode_t0 <| .action (.call id!"CamelCase" (.cons (.path none [id!"FullName"] .nil) .nil)) <| .text decode_t1 <| .assign id!"decoding" (.call id!"GetDecodingFields" (.cons (.path none [id!"Fields"] .nil) .nil)) <| .range none id!"field" (.path (some id!"decoding") [id!"SliceFields"] .nil) decode_r0 <| .range none id!"field" (.path (some id!"decoding") [id!"MessageFields"] .nil) decode_r1 <| .range none id!"field" (.path (some id!"decoding") [id!"Other"] .nil) decode_r2 <| .text decode_t35 <| .action (.call id!"CamelCase" (.cons (.path none [id!"FullName"] .nil) .nil)) <| .text decode_t36 <| .range none id!"field" (.path (some id!"decoding") [id!"Other"] .nil) decode_r3 <| .range none id!"field" (.path (some id!"decoding") [id!"SliceFields"] .nil) decode_r4 <| .range none id!"field" (.path (some id!"decoding") [id!"MessageFields"] .nil) decode_r5 <| .text decode_t40 <| .nil

theorem decode_parses : parseDefinitions decodeSrc = some [(id!"decode", decodeBody)] := by decide +kernel

/-- /repo/generator/typescript/templates/decodeMap.templ -/
def decodeMapSrc : Bytes := str!"{{define \"decodeMap\"}}
{{ $mapKeyValue := FindValue .MapKey }}
{{ $mapValueValue := FindValue .MapValue }}
{{ $keyDecoder := GetLUTDecoder .MapKey.Kind -}}
{{ $valDecoder := GetLUTDecoder .MapValue.Kind -}}

let {{ LowercaseCamelCaseName .Name }} = {{ TrackDependency \"decodeMap\" }}(decoded)
decoded = {{ LowercaseCamelCaseName .Name }}.buf
const {{ LowercaseCamelCaseName .Name }}Temp: { value: Map<{{ $mapKeyValue }},{{ $mapValueValue }}> } = { value: new Map() }
for (let i = 0; i < {{ LowercaseCamelCaseName .Name }}.size; i++) {
    {{ if eq .MapKey.Kind 14 -}}  {{/* protoreflect.EnumKind */ -}}
        let keyEnum = {{ TrackDependency \"decodeUint32\" }}(decoded)
        const key = { value: keyEnum as {{ $mapKeyValue }} }
        decoded = keyEnum.buf
    {{ else if eq .MapKey.Kind 11 -}}  {{/* protoreflect.MessageKind */ -}}
        let key = {{ TrimSuffix $mapKeyValue \"[]\" }}.decode(decoded)
        decoded = key.buf
    {{ else -}}
        let key = {{ $keyDecoder }}(decoded)
        decoded = key.buf
    {{end}}

    {{ if eq .MapValue.Kind 14 -}}  {{/* protoreflect.EnumKind */ -}}
        let valueEnum = {{ TrackDependency \"decodeUint32\" }}(decoded)
        const value = { value: valueEnum as {{ $mapValueValue }} }
        decoded = valueEnum.buf
    {{ else if eq .MapValue.Kind 11 -}}  {{/* protoreflect.MessageKind */ -}}
        let value = {{ TrimSuffix $mapValueValue \"[]\" }}.decode(decoded)
        decoded = value.buf
    {{ else -}}
        let value = {{ $valDecoder }}(decoded)
        decoded = value.buf
    {{end}}

    {{ LowercaseCamelCaseName .Name }}.value.set(key, value)
}
{{end}}"

def decodeMap_t0 : Bytes := str!"\n"

def decodeMap_t1 : Bytes := str!"\n"

def decodeMap_t2 : Bytes := str!"\n"

def decodeMap_t3 : Bytes := str!"let "

def decodeMap_t4 : Bytes := str!" = "

def decodeMap_t5 : Bytes := str!"(decoded)\ndecoded = "

def decodeMap_t6 : Bytes := str!".buf\nconst "

def decodeMap_t7 : Bytes := str!"Temp: { value: Map<"

def decodeMap_t8 : Bytes := str!","

def decodeMap_t9 : Bytes := str!"> } = { value: new Map() }\nfor (let i = 0; i < "

def decodeMap_t10 : Bytes := str!".size; i++) {\n    "

def decodeMap_t11 : Bytes := str!"let keyEnum = "

def decodeMap_t12 : Bytes := str!"(decoded)\n        const key = { value: keyEnum as "

def decodeMap_t13 : Bytes := str!" }\n        decoded = keyEnum.buf\n    "

def decodeMap_t14 : Bytes := str!"let key = "

def decodeMap_t15 : Bytes := str!".decode(decoded)\n        decoded = key.buf\n    "

def decodeMap_t16 : Bytes := str!"let key = "

def decodeMap_t17 : Bytes := str!"(decoded)\n        decoded = key.buf\n    "

def decodeMap_t18 : Bytes := str!"\n\n    "

def decodeMap_t19 : Bytes := str!"let valueEnum = "

def decodeMap_t20 : Bytes := str!"(decoded)\n        const value = { value: valueEnum as "

def decodeMap_t21 : Bytes := str!" }\n        decoded = valueEnum.buf\n    "

def decodeMap_t22 : Bytes := str!"let value = "

def decodeMap_t23 : Bytes := str!".decode(decoded)\n        decoded = value.buf\n    "

def decodeMap_t24 : Bytes := str!"let value = "

def decodeMap_t25 : Bytes := str!"(decoded)\n        decoded = value.buf\n    "

def decodeMap_t26 : Bytes := str!"\n\n    "

def decodeMap_t27 : Bytes := str!".value.set(key, value)\n}\n"

def decodeMapBody : Body :=
  .text decodeMap_t0 <| .assign id!"mapKeyValue" (.call id!"FindValue" (.cons (.path none [id!"MapKey"] .nil) .nil)) <| .text decodeMap_t1 <| .assign id!"mapValueValue" (.call id!"FindValue" (.cons (.path none [id!"MapValue"] .nil) .nil)) <| .text decodeMap_t2 <| .assign id!"keyDecoder" (.call id!"GetLUTDecoder" (.cons (.path none [id!"MapKey", id!"Kind"] .nil) .nil)) <| .assign id!"valDecoder" (.call id!"GetLUTDecoder" (.cons (.path none [id!"MapValue", id!"Kind"] .nil) .nil)) <| .text decodeMap_t3 <| .action (.call id!"LowercaseCamelCaseName" (.cons (.path none [id!"Name"] .nil) .nil)) <| .text decodeMap_t4 <| .action (.call id!"TrackDependency" (.cons (.str str!"decodeMap") .nil)) <| .text decodeMap_t5 <| .action (.call id!"LowercaseCamelCaseName" (.cons (.path none [id!"Name"] .nil) .nil)) <| .text decodeMap_t6 <| .action (.call id!"LowercaseCamelCaseName" (.cons (.path none [id!"Name"] .nil) .nil)) <| .text decodeMap_t7 <| .action (.path (some id!"mapKeyValue") [] .nil) <| .text decodeMap_t8 <| .action (.path (some id!"mapValueValue") [] .nil) <| .text decodeMap_t9 <| .action (.call id!"LowercaseCamelCaseName" (.cons (.path none [id!"Name"] .nil) .nil)) <| .text decodeMap_t10 <| .ite (.call id!"eq" (.cons (.path none [id!"MapKey", id!"Kind"] .nil) (.cons (.num 14) .nil))) (.text decodeMap_t11 <| .action (.call id!"TrackDependency" (.cons (.str str!"decodeUint32") .nil)) <| .text decodeMap_t12 <| .action (.path (some id!"mapKeyValue") [] .nil) <| .text decodeMap_t13 <| .nil) (.ite (.call id!"eq" (.cons (.path none [id!"MapKey", id!"Kind"] .nil) (.cons (.num 11) .nil))) (.text decodeMap_t14 <| .action (.call id!"TrimSuffix" (.cons (.path (some id!"mapKeyValue") [] .nil) (.cons (.str str!"[]") .nil))) <| .text decodeMap_t15 <| .nil) (.text decodeMap_t16 <| .action (.path (some id!"keyDecoder") [] .nil) <| .text decodeMap_t17 <| .nil) <| .nil) <| .text decodeMap_t18 <| .ite (.call id!"eq" (.cons (.path none [id!"MapValue", id!"Kind"] .nil) (.cons (.num 14) .nil))) (.text decodeMap_t19 <| .action (.call id!"TrackDependency" (.cons (.str str!"decodeUint32") .nil)) <| .text decodeMap_t20 <| .action (.path (some id!"mapValueValue") [] .nil) <| .text decodeMap_t21 <| .nil) (.ite (.call id!"eq" (.cons (.path none [id!"MapValue", id!"Kind"] .nil) (.cons (.num 11) .nil))) (.text decodeMap_t22 <| .action (.call id!"TrimSuffix" (.cons (.path (some id!"mapValueValue") [] .nil) (.cons (.str str!"[]") .nil))) <| .text decodeMap_t23 <| .nil) (.text decodeMap_t24 <| .action (.path (some id!"valDecoder") [] .nil) <| .text decodeMap_t25 <| .nil) <| .nil) <| .text decodeMap_t26 <| .action (.call id!"LowercaseCamelCaseName" (.cons (.path none [id!"Name"] .nil) .nil)) <| .text decodeMap_t27 <| .nil

theorem decodeMap_parses : parseDefinitions decodeMapSrc = some [(id!"decodeMap", decodeMapBody)] := by decide +kernel

/-- /repo/generator/typescript/templates/encode.templ -/
def encodeSrc : Bytes := str!"{{define \"encode\"}}
    encode(buf: Uint8Array): Uint8Array {
        let encoded = buf
        
        {{ $encoding := GetEncodingFields .Fields -}}

        {{ range $val := $encoding.Values}}
        encoded = {{ $val -}}
        {{end }}

        {{ if $encoding.SliceFields -}}
            {{template \"encodeSlices\" $encoding -}}
        {{end -}}
        {{ if $encoding.MessageFields -}}
            {{template \"encodeMessages\" $encoding -}}
        {{end}}
        
        return encoded
    }
{{end}}

{{define \"encodeSlices\"}}
    {{ range $field := .SliceFields -}}
        {{ $encoder := GetLUTEncoder $field.Kind -}}

        {{ if and (eq $encoder \"\") (eq $field.Kind 11) -}} {{/* protoreflect.MessageKind */ -}}
        encoded = {{ TrackDependency \"encodeArray\" }}(encoded, this._{{ LowercaseCamelCaseName $field.Name}}.length, Kind.Any)
        this._{{ LowercaseCamelCaseName $field.Name}}.forEach((field) => {
            encoded = field.encode(encoded)
        })
        {{else -}}
        encoded = {{ TrackDependency \"encodeArray\" }}(this._{{ LowercaseCamelCaseName $field.Name}}.length, {{ GetKindLUT $field.Kind }})
        this._{{ LowercaseCamelCaseName $field.Name}}.forEach((field) => {
            encoded = {{$encoder}}(encoded, field)
        })
        {{end -}}
    {{end -}}
{{end}}


{{define \"encodeMessages\"}}
    {{ range $field := .MessageFields -}}
        {{ if $field.IsMap -}}
            {{ $keyKind := GetKind $field.MapKey.Kind -}}
            {{ $valKind := GetKind $field.MapValue.Kind -}}
            encoded = {{ TrackDependency \"encodeMap\" }}(encoded, this._{{ LowercaseCamelCaseName $field.Name }}.size, {{ $keyKind }}, {{ $valKind }})
            this._{{ LowercaseCamelCaseName $field.Name }}.forEach((v, k) => {
            {{ $keyEncoder := GetLUTEncoder $field.MapKey.Kind -}}
            {{ if and (eq $keyEncoder \"\") (eq $field.MapKey.Kind 11) -}} {{/* protoreflect.MessageKind */ -}}
            encoded = k.encode(encoded)
            {{else -}}
                {{ if eq $field.MapKey.Kind 14 -}}  {{/* protoreflect.EnumKind */ -}}
                    encoded = {{ TrackDependency \"encodeUint32\" }}(encoded, k as number)
                {{else -}}
                    encoded = {{$keyEncoder}}(encoded, k)
                {{end -}}
            {{end -}}
            {{ $valEncoder := GetLUTEncoder $field.MapValue.Kind -}}
            {{ if and (eq $valEncoder \"\") (eq $field.MapValue.Kind 11) -}} {{/* protoreflect.MessageKind */ -}}
            encoded = v.encode(encoded)
            {{else -}}
                {{ if eq $field.MapValue.Kind 14 -}}  {{/* protoreflect.EnumKind */ -}}
                    encoded = {{ TrackDependency \"encodeUint32\" }}(encoded, v as number)
                {{else -}}
                    encoded = {{$valEncoder}}(encoded, v)
                {{end -}}
            {{end -}}
            })
        {{else -}}
            encoded = this._{{ LowercaseCamelCaseName $field.Name }}.encode(encoded);
        {{end -}}
    {{end -}}
{{end}}"

def encode_t0 : Bytes := str!"\n    encode(buf: Uint8Array): Uint8Array {\n        let encoded = buf\n        \n        "

def encode_t1 : Bytes := str!"\n        encoded = "

def encode_r0 : Body :=
  .text encode_t1 <| .action (.path (some id!"val") [] .nil) <| .nil

def encode_t2 : Bytes := str!"\n\n        "

def encode_t3 : Bytes := str!"\n        \n        return encoded\n    }\n"

def encodeBody : Body :=
  .text encode_t0 <| .assign id!"encoding" (.call id!"GetEncodingFields" (.cons (.path none [id!"Fields"] .nil) .nil)) <| .range none id!"val" (.path (some id!"encoding") [id!"Values"] .nil) encode_r0 <| .text encode_t2 <| .ite (.path (some id!"encoding") [id!"SliceFields"] .nil) (.template id!"encodeSlices" (.path (some id!"encoding") [] .nil) <| .nil) (.nil) <| .ite (.path (some id!"encoding") [id!"MessageFields"] .nil) (.template id!"encodeMessages" (.path (some id!"encoding") [] .nil) <| .nil) (.nil) <| .text encode_t3 <| .nil

def encodeSlices_t0 : Bytes := str!"\n    "

def encodeSlices_t1 : Bytes := str!"encoded = "

def encodeSlices_t2 : Bytes := str!"(encoded, this._"

def encodeSlices_t3 : Bytes := str!".length, Kind.Any)\n        this._"

def encodeSlices_t4 : Bytes := str!".forEach((field) => {\n            encoded = field.encode(encoded)\n        })\n        "

def encodeSlices_t5 : Bytes := str!"encoded = "

def encodeSlices_t6 : Bytes := str!"(this._"

def encodeSlices_t7 : Bytes := str!".length, "

def encodeSlices_t8 : Bytes := str!")\n        this._"

def encodeSlices_t9 : Bytes := str!".forEach((field) => {\n            encoded = "

def encodeSlices_t10 : Bytes := str!"(encoded, field)\n        })\n        "

def encodeSlices_r0 : Body :=
  .assign id!"encoder" (.call id!"GetLUTEncoder" (.cons (.path (some id!"field") [id!"Kind"] .nil) .nil)) <| .ite (.call id!"and" (.cons (.call id!"eq" (.cons (.path (some id!"encoder") [] .nil) (.cons (.str str!"") .nil))) (.cons (.call id!"eq" (.cons (.path (some id!"field") [id!"Kind"] .nil) (.cons (.num 11) .nil))) .nil))) (.text encodeSlices_t1 <| .action (.call id!"TrackDependency" (.cons (.str str!"encodeArray") .nil)) <| .text encodeSlices_t2 <| .action (.call id!"LowercaseCamelCaseName" (.cons (.path (some id!"field") [id!"Name"] .nil) .nil)) <| .text encodeSlices_t3 <| .action (.call id!"LowercaseCamelCaseName" (.cons (.path (some id!"field") [id!"Name"] .nil) .nil)) <| .text encodeSlices_t4 <| .nil) (.text encodeSlices_t5 <| .action (.call id!"TrackDependency" (.cons (.str str!"encodeArray") .nil)) <| .text encodeSlices_t6 <| .action (.call id!"LowercaseCamelCaseName" (.cons (.path (some id!"field") [id!"Name"] .nil) .nil)) <| .text encodeSlices_t7 <| .action (.call id!"GetKindLUT" (.cons (.path (some id!"field") [id!"Kind"] .nil) .nil)) <| .text encodeSlices_t8 <| .action (.call id!"LowercaseCamelCaseName" (.cons (.path (some id!"field") [id!"Name"] .nil) .nil)) <| .text encodeSlices_t9 <| .action (.path (some id!"encoder") [] .nil) <| .text encodeSlices_t10 <| .nil) <| .nil

def encodeSlicesBody : Body :=
  .text encodeSlices_t0 <| .range none id!"field" (.path none [id!"SliceFields"] .nil) encodeSlices_r0 <| .nil

def encodeMessages_t0 : Bytes := str!"\n    "

def encodeMessages_t1 : Bytes := str!"encoded = "

def encodeMessages_t2 : Bytes := str!"(encoded, this._"

def encodeMessages_t3 : Bytes := str!".size, "

def encodeMessages_t4 : Bytes := str!", "

def encodeMessages_t5 : Bytes := str!")\n            this._"

def encodeMessages_t6 : Bytes := str!".forEach((v, k) => {\n            "

def encodeMessages_t7 : Bytes := str!"encoded = k.encode(encoded)\n            "

def encodeMessages_t8 : Bytes := str!"encoded = "

def encodeMessages_t9 : Bytes := str!"(encoded, k as number)\n                "

def encodeMessages_t10 : Bytes := str!"encoded = "

def encodeMessages_t11 : Bytes := str!"(encoded, k)\n                "

def encodeMessages_t12 : Bytes := str!"encoded = v.encode(encoded)\n            "

def encodeMessages_t13 : Bytes := str!"encoded = "

def encodeMessages_t14 : Bytes := str!"(encoded, v as number)\n                "

def encodeMessages_t15 : Bytes := str!"encoded = "

def encodeMessages_t16 : Bytes := str!"(encoded, v)\n                "

def encodeMessages_t17 : Bytes := str!"})\n        "

def encodeMessages_t18 : Bytes := str!"encoded = this._"

def encodeMessages_t19 : Bytes := str!".encode(encoded);\n        "

def encodeMessages_r0 : Body :=
  .ite (.path (some id!"field") [id!"IsMap"] .nil) (.assign id!"keyKind" (.call id!"GetKind" (.cons (.path (some id!"field") [id!"MapKey", id!"Kind"] .nil) .nil)) <| .assign id!"valKind" (.call id!"GetKind" (.cons (.path (some id!"field") [id!"MapValue", id!"Kind"] .nil) .nil)) <| .text encodeMessages_t1 <| .action (.call id!"TrackDependency" (.cons (.str str!"encodeMap") .nil)) <| .text encodeMessages_t2 <| .action (.call id!"LowercaseCamelCaseName" (.cons (.path (some id!"field") [id!"Name"] .nil) .nil)) <| .text encodeMessages_t3 <| .action (.path (some id!"keyKind") [] .nil) <| .text encodeMessages_t4 <| .action (.path (some id!"valKind") [] .nil) <| .text encodeMessages_t5 <| .action (.call id!"LowercaseCamelCaseName" (.cons (.path (some id!"field") [id!"Name"] .nil) .nil)) <| .text encodeMessages_t6 <| .assign id!"keyEncoder" (.call id!"GetLUTEncoder" (.cons (.path (some id!"field") [id!"MapKey", id!"Kind"] .nil) .nil)) <| .ite (.call id!"and" (.cons (.call id!"eq" (.cons (.path (some id!"keyEncoder") [] .nil) (.cons (.str str!"") .nil))) (.cons (.call id!"eq" (.cons (.path (some id!"field") [id!"MapKey", id!"Kind"] .nil) (.cons (.num 11) .nil))) .nil))) (.text encodeMessages_t7 <| .nil) (.ite (.call id!"eq" (.cons (.path (some id!"field") [id!"MapKey", id!"Kind"] .nil) (.cons (.num 14) .nil))) (.text encodeMessages_t8 <| .action (.call id!"TrackDependency" (.cons (.str str!"encodeUint32") .nil)) <| .text encodeMessages_t9 <| .nil) (.text encodeMessages_t10 <| .action (.path (some id!"keyEncoder") [] .nil) <| .text encodeMessages_t11 <| .nil) <| .nil) <| .assign id!"valEncoder" (.call id!"GetLUTEncoder" (.cons (.path (some id!"field") [id!"MapValue", id!"Kind"] .nil) .nil)) <| .ite (.call id!"and" (.cons (.call id!"eq" (.cons (.path (some id!"valEncoder") [] .nil) (.cons (.str str!"") .nil))) (.cons (.call id!"eq" (.cons (.path (some id!"field") [id!"MapValue", id!"Kind"] .nil) (.cons (.num 11) .nil))) .nil))) (.text encodeMessages_t12 <| .nil) (.ite (.call id!"eq" (.cons (.path (some id!"field") [id!"MapValue", id!"Kind"] .nil) (.cons (.num 14) .nil))) (.text encodeMessages_t13 <| .action (.call id!"TrackDependency" (.cons (.str str!"encodeUint32") .nil)) <| .text encodeMessages_t14 <| .nil) (.text encodeMessages_t15 <| .action (.path (some id!"valEncoder") [] .nil) <| .text encodeMessages_t16 <| .nil) <| .nil) <| .text encodeMessages_t17 <| .nil) (.text encodeMessages_t18 <| .action (.call id!"LowercaseCamelCaseName" (.cons (.path (some id!"field") [id!"Name"] .nil) .nil)) <| .text encodeMessages_t19 <| .nil) <| .nil

def encodeMessagesBody : Body :=
  .text encodeMessages_t0 <| .range none id!"field" (.path none [id!"MessageFields"] .nil) encodeMessages_r0 <| .nil

theorem encode_parses : parseDefinitions encodeSrc = some [(id!"encode", encodeBody), (id!"encodeSlices", encodeSlicesBody), (id!"encodeMessages", encodeMessagesBody)] := by decide +kernel

/-- /repo/generator/typescript/templates/enums.templ -/
def enumsSrc : Bytes := str!"{{define \"enums\"}}
{{range $i, $e := (MakeIterable .enums.Len) -}}
{{ $enum := ($.enums.Get $i) -}}
{{template \"enum\" $enum}}
{{end -}}
{{end}}

{{define \"enum\"}}
{{ $enumName := (CamelCaseFullName $.FullName) -}}
enum {{ $enumName }} {
    {{range $i, $v := (MakeIterable $.Values.Len) -}}
        {{ $val := ($.Values.Get $i) -}}
        {{$val.Name}} = {{ $i }},
    {{end -}}
}
{{end}}

"

def enums_t0 : Bytes := str!"\n"

def enums_t1 : Bytes := str!"\n"

def enums_r0 : Body :=
  .assign id!"enum" (.path (some 0) [id!"enums", id!"Get"] (.cons (.path (some id!"i") [] .nil) .nil)) <| .template id!"enum" (.path (some id!"enum") [] .nil) <| .text enums_t1 <| .nil

def enumsBody : Body :=
  .text enums_t0 <| .range (some id!"i") id!"e" (.call id!"MakeIterable" (.cons (.path none [id!"enums", id!"Len"] .nil) .nil)) enums_r0 <| .nil

def enum_t0 : Bytes := str!"\n"

def enum_t1 : Bytes := str!"enum "

def enum_t2 : Bytes := str!" {\n    "

def enum_t3 : Bytes := str!" = "

def enum_t4 : Bytes := str!",\n    "

def enum_r0 : Body :=
  .assign id!"val" (.path (some 0) [id!"Values", id!"Get"] (.cons (.path (some id!"i") [] .nil) .nil)) <| .action (.path (some id!"val") [id!"Name"] .nil) <| .text enum_t3 <| .action (.path (some id!"i") [] .nil) <| .text enum_t4 <| .nil

def enum_t5 : Bytes := str!"}\n"

def enumBody : Body :=
  .text enum_t0 <| .assign id!"enumName" (.call id!"CamelCaseFullName" (.cons (.path (some 0) [id!"FullName"] .nil) .nil)) <| .text enum_t1 <| .action (.path (some id!"enumName") [] .nil) <| .text enum_t2 <| .range (some id!"i") id!"v" (.call id!"MakeIterable" (.cons (.path (some 0) [id!"Values", id!"Len"] .nil) .nil)) enum_r0 <| .text enum_t5 <| .nil

theorem enums_parses : parseDefinitions enumsSrc = some [(id!"enums", enumsBody), (id!"enum", enumBody)] := by decide +kernel

/-- /repo/generator/typescript/templates/headers.templ -/
def headersSrc : Bytes := str!"{{define \"headers\"}}
// Code generated by polyglot {{ .pluginVersion }}, DO NOT EDIT.
// source: {{ .sourcePath }}
{{end}}"

def headers_t0 : Bytes := str!"\n// Code generated by polyglot "

def headers_t1 : Bytes := str!", DO NOT EDIT.\n// source: "

def headers_t2 : Bytes := str!"\n"

def headersBody : Body :=
  .text headers_t0 <| .action (.path none [id!"pluginVersion"] .nil) <| .text headers_t1 <| .action (.path none [id!"sourcePath"] .nil) <| .text headers_t2 <| .nil

theorem headers_parses : parseDefinitions headersSrc = some [(id!"headers", headersBody)] := by decide +kernel

/-- /repo/generator/typescript/templates/imports.templ -/
def importsSrc : Bytes := str!"{{define \"imports\"}}
import { {{ range $key, $_ := .dependencies -}}{{ $key }},{{ end -}} } from \"polyglot\"
{{end}}"

def imports_t0 : Bytes := str!"\nimport { "

def imports_t1 : Bytes := str!","

def imports_r0 : Body :=
  .action (.path (some id!"key") [] .nil) <| .text imports_t1 <| .nil

def imports_t2 : Bytes := str!"} from \"polyglot\"\n"

def importsBody : Body :=
  .text imports_t0 <| .range (some id!"key") id!"_" (.path none [id!"dependencies"] .nil) imports_r0 <| .text imports_t2 <| .nil

theorem imports_parses : parseDefinitions importsSrc = some [(id!"imports", importsBody)] := by decide +kernel

/-- /repo/generator/typescript/templates/messages.templ -/
def messagesSrc : Bytes := str!"{{define \"messages\"}}
{{range $i, $e := (MakeIterable .messages.Len) -}}
    {{ $message := $.messages.Get $i }}
    {{range $i, $e := (MakeIterable $message.Enums.Len) -}}
        {{ $enum := ($message.Enums.Get $i) }}
        {{template \"enum\" $enum}}
    {{end}}
    {{template \"structs\" $message}}
{{end}}
{{end}}"

def messages_t0 : Bytes := str!"\n"

def messages_t1 : Bytes := str!"\n    "

def messages_t2 : Bytes := str!"\n        "

def messages_t3 : Bytes := str!"\n    "

def messages_r1 : Body :=
  .assign id!"enum" (.path (some id!"message") [id!"Enums", id!"Get"] (.cons (.path (some id!"i") [] .nil) .nil)) <| .text messages_t2 <| .template id!"enum" (.path (some id!"enum") [] .nil) <| .text messages_t3 <| .nil

def messages_t4 : Bytes := str!"\n    "

def messages_t5 : Bytes := str!"\n"

def messages_r0 : Body :=
  .assign id!"message" (.path (some 0) [id!"messages", id!"Get"] (.cons (.path (some id!"i") [] .nil) .nil)) <| .text messages_t1 <| .range (some id!"i") id!"e" (.call id!"MakeIterable" (.cons (.path (some id!"message") [id!"Enums", id!"Len"] .nil) .nil)) messages_r1 <| .text messages_t4 <| .template id!"structs" (.path (some id!"message") [] .nil) <| .text messages_t5 <| .nil

def messages_t6 : Bytes := str!"\n"

def messagesBody : Body :=
  .text messages_t0 <| .range (some id!"i") id!"e" (.call id!"MakeIterable" (.cons (.path none [id!"messages", id!"Len"] .nil) .nil)) messages_r0 <| .text messages_t6 <| .nil

theorem messages_parses : parseDefinitions messagesSrc = some [(id!"messages", messagesBody)] := by decide +kernel

/-- /repo/generator/typescript/templates/structs.templ -/
def structsSrc : Bytes := str!"{{define \"structs\"}}
    {{ range $i, $v := (MakeIterable $.Messages.Len) }}
        {{ $message := $.Messages.Get $i }}
        {{ if not $message.IsMapEntry }}
            {{template \"structs\" $message}}
        {{end}}
    {{end}}
    export class {{ CamelCase .FullName }} {
        constructor(
        {{ range $i, $v := (MakeIterable $.Fields.Len) -}}
            {{ $field := $.Fields.Get $i -}}
            {{ $value := FindValue $field -}}
            {{ LowercaseCamelCaseName $field.Name }}: {{ $value }},
        {{end -}}
        ) {
            {{ range $i, $v := (MakeIterable $.Fields.Len) -}}
                {{ $field := $.Fields.Get $i -}}
                this._{{ LowercaseCamelCaseName $field.Name }} = {{ LowercaseCamelCaseName $field.Name }}
            {{end -}}
        }

        {{ range $i, $v := (MakeIterable $.Fields.Len) -}}
            {{ $field := $.Fields.Get $i -}}
            {{ $value := FindValue $field -}}
            private _{{ LowercaseCamelCaseName $field.Name }}: {{ $value }}

            get {{ LowercaseCamelCaseName $field.Name }}(): {{ $value }} {
                return this._{{ LowercaseCamelCaseName $field.Name }}
            }

            set {{ LowercaseCamelCaseName $field.Name }}({{ LowercaseCamelCaseName $field.Name }}: {{ $value }}) {
                this._{{ LowercaseCamelCaseName $field.Name }} = {{ LowercaseCamelCaseName $field.Name }}
            }
            
        {{end -}}

        {{template \"encode\" .}}

        {{template \"decode\" .}}
    } 
{{end}}
"

def structs_t0 : Bytes := str!"\n    "

def structs_t1 : Bytes := str!"\n        "

def structs_t2 : Bytes := str!"\n        "

def structs_t3 : Bytes := str!"\n            "

def structs_t4 : Bytes := str!"\n        "

def structs_t5 : Bytes := str!"\n    "

def structs_r0 : Body :=
  .text structs_t1 <| .assign id!"message" (.path (some 0) [id!"Messages", id!"Get"] (.cons (.path (some id!"i") [] .nil) .nil)) <| .text structs_t2 <| .ite (.call id!"not" (.cons (.path (some id!"message") [id!"IsMapEntry"] .nil) .nil)) (.text structs_t3 <| .template id!"structs" (.path (some id!"message") [] .nil) <| .text structs_t4 <| .nil) (.nil) <| .text structs_t5 <| .nil

def structs_t6 : Bytes := str!"\n    export class "

def structs_t7 : Bytes := str!" {\n        constructor(\n        "

def structs_t8 : Bytes := str!": "

def structs_t9 : Bytes := str!",\n        "

def structs_r1 : Body :=
  .assign id!"field" (.path (some 0) [id!"Fields", id!"Get"] (.cons (.path (some id!"i") [] .nil) .nil)) <| .assign id!"value" (.call id!"FindValue" (.cons (.path (some id!"field") [] .nil) .nil)) <| .action (.call id!"LowercaseCamelCaseName" (.cons (.path (some id!"field") [id!"Name"] .nil) .nil)) <| .text structs_t8 <| .action (.path (some id!"value") [] .nil) <| .text structs_t9 <| .nil

def structs_t10 : Bytes := str!") {\n            "

def structs_t11 : Bytes := str!"this._"

def structs_t12 : Bytes := str!" = "

def structs_t13 : Bytes := str!"\n            "

def structs_r2 : Body :=
  .assign id!"field" (.path (some 0) [id!"Fields", id!"Get"] (.cons (.path (some id!"i") [] .nil) .nil)) <| .text structs_t11 <| .action (.call id!"LowercaseCamelCaseName" (.cons (.path (some id!"field") [id!"Name"] .nil) .nil)) <| .text structs_t12 <| .action (.call id!"LowercaseCamelCaseName" (.cons (.path (some id!"field") [id!"Name"] .nil) .nil)) <| .text structs_t13 <| .nil

def structs_t14 : Bytes := str!"}\n\n        "

def structs_t15 : Bytes := str!"private _"

def structs_t16 : Bytes := str!": "

def structs_t17 : Bytes := str!"\n\n            get "

def structs_t18 : Bytes := str!"(): "

def structs_t19 : Bytes := str!" {\n                return this._"

def structs_t20 : Bytes := str!"\n            }\n\n            set "

def structs_t21 : Bytes := str!"("

def structs_t22 : Bytes := str!": "

def structs_t23 : Bytes := str!") {\n                this._"

def structs_t24 : Bytes := str!" = "

def structs_t25 : Bytes := str!"\n            }\n            \n        "

def structs_r3 : Body :=
  .assign id!"field" (.path (some 0) [id!"Fields", id!"Get"] (.cons (.path (some id!"i") [] .nil) .nil)) <| .assign id!"value" (.call id!"FindValue" (.cons (.path (some id!"field") [] .nil) .nil)) <| .text structs_t15 <| .action (.call id!"LowercaseCamelCaseName" (.cons (.path (some id!"field") [id!"Name"] .nil) .nil)) <| .text structs_t16 <| .action (.path (some id!"value") [] .nil) <| .text structs_t17 <| .action (.call id!"LowercaseCamelCaseName" (.cons (.path (some id!"field") [id!"Name"] .nil) .nil)) <| .text structs_t18 <| .action (.path (some id!"value") [] .nil) <| .text structs_t19 <| .action (.call id!"LowercaseCamelCaseName" (.cons (.path (some id!"field") [id!"Name"] .nil) .nil)) <| .text structs_t20 <| .action (.call id!"LowercaseCamelCaseName" (.cons (.path (some id!"field") [id!"Name"] .nil) .nil)) <| .text structs_t21 <| .action (.call id!"LowercaseCamelCaseName" (.cons (.path (some id!"field") [id!"Name"] .nil) .nil)) <| .text structs_t22 <| .action (.path (some id!"value") [] .nil) <| .text structs_t23 <| .action (.call id!"LowercaseCamelCaseName" (.cons (.path (some id!"field") [id!"Name"] .nil) .nil)) <| .text structs_t24 <| .action (.call id!"LowercaseCamelCaseName" (.cons (.path (some id!"field") [id!"Name"] .nil) .nil)) <| .text structs_t25 <| .nil

def structs_t26 : Bytes := str!"\n\n        "

def structs_t27 : Bytes := str!"\n    } \n"

def structsBody : Body :=
  .text structs_t0 <| .range (some id!"i") id!"v" (.call id!"MakeIterable" (.cons (.path (some 0) [id!"Messages", id!"Len"] .nil) .nil)) structs_r0 <| .text structs_t6 <| .action (.call id!"CamelCase" (.cons (.path none [id!"FullName"] .nil) .nil)) <| .text structs_t7 <| .range (some id!"i") id!"v" (.call id!"MakeIterable" (.cons (.path (some 0) [id!"Fields", id!"Len"] .nil) .nil)) structs_r1 <| .text structs_t10 <| .range (some id!"i") id!"v" (.call id!"MakeIterable" (.cons (.path (some 0) [id!"Fields", id!"Len"] .nil) .nil)) structs_r2 <| .text structs_t14 <| .range (some id!"i") id!"v" (.call id!"MakeIterable" (.cons (.path (some 0) [id!"Fields", id!"Len"] .nil) .nil)) structs_r3 <| .template id!"encode" (.path none [] .nil) <| .text structs_t26 <| .template id!"decode" (.path none [] .nil) <| .text structs_t27 <| .nil

theorem structs_parses : parseDefinitions structsSrc = some [(id!"structs", structsBody)] := by decide +kernel

/-- All named templates (generator.go 88 `ParseFS`). -/
def defs : List (Nat × Body) :=
  [(id!"decode", decodeBody),
   (id!"decodeMap", decodeMapBody),
   (id!"encode", encodeBody),
   (id!"encodeSlices", encodeSlicesBody),
   (id!"encodeMessages", encodeMessagesBody),
   (id!"enums", enumsBody),
   (id!"enum", enumBody),
   (id!"headers", headersBody),
   (id!"imports", importsBody),
   (id!"messages", messagesBody),
   (id!"structs", structsBody)]

/-- The files with definitions. -/
def sources : List Bytes := [decodeSrc, decodeMapSrc, encodeSrc, enumsSrc, headersSrc, importsSrc, messagesSrc, structsSrc]

/-- generator.go 88 `ParseFS`: what the files define. -/
def parsed : Option (List (Nat × Body)) := (sources.mapM parseDefinitions).map List.flatten

theorem parsed_eq : parsed = some defs := by
  simp only [parsed, sources, List.mapM_cons, List.mapM_nil, decode_parses, decodeMap_parses, encode_parses, enums_parses, headers_parses,
    imports_parses, messages_parses, structs_parses]
  rfl

end TsTempl
