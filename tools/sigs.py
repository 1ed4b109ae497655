#!/usr/bin/env python3
"""Print the statements of the theorems named Cnn_… for the given property ids."""
import re,sys,glob
ids=sys.argv[1:]
for f in sorted(glob.glob('/verif/lean/Verif/**/*.lean',recursive=True)):
    L=open(f).read().split('\n')
    for i,l in enumerate(L):
        m=re.match(r'theorem (C\d\d)_\S*',l)
        if m and m.group(1) in ids:
            j=i-1
            doc=[]
            if L[j].endswith('-/'):
                while True:
                    doc.insert(0,L[j])
                    if '/--' in L[j]: break
                    j-=1
            print(f[len('/verif/lean/Verif/'):]+':'+str(i+1))
            print('\n'.join(doc))
            k=i
            while True:
                print(L[k])
                if ':= by' in L[k] or L[k].rstrip().endswith(':=') or ':= ' in L[k] or L[k].strip()=='' : break
                k+=1
            print()
