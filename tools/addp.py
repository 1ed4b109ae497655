#!/usr/bin/env python3
"""Add a property: addp.py file.json  (id,title,statement,quantifier,why,anchors,status,note,component row or null,method)."""
import json,sys,re
d=json.load(open(sys.argv[1]))
p='/verif/tools/gen_properties.py'
s=open(p).read()
line='p(%s)\n'%','.join(json.dumps(d[k],ensure_ascii=False) for k in('id','title','statement','quantifier','why','anchors'))
s=s.replace('# Exact statements: where the code deviates',line+'# Exact statements: where the code deviates',1)
open(p,'w').write(s)
p='/verif/tools/notes.json'
n=json.load(open(p)); n[d['id']]={'status':d.get('status','proved'),'note':d['note']}
json.dump(n,open(p,'w'),indent=1,ensure_ascii=False)
