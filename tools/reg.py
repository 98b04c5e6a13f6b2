# helper: reg(props_text, manifest_text, row, more, dev, imports)
import json
def reg(props, man, rows=[], more=[], dev=[], imports=[]):
    g='/tmp/gen/props.py'; s=open(g).read()
    s=s.replace("with open('/verif/properties.jsonl'",props.strip()+"\n\nwith open('/verif/properties.jsonl'"); open(g,'w').write(s)
    g='/tmp/gen/manifest.py'; s=open(g).read()
    s=s.replace('json.dump({"claims"',man.strip()+'\njson.dump({"claims"'); open(g,'w').write(s)
    g='/verif/tools/plan.json'; d=json.load(open(g))
    d['rows']+=rows; d['more']+=more; d['dev']+=dev
    json.dump(d,open(g,'w'),indent=1,ensure_ascii=False)
    m='/verif/lean/Verif.lean'; s=open(m).read().rstrip()+"\n"+"".join(f"import {i}\n" for i in imports); open(m,'w').write(s)
